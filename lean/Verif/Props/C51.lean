import Verif.Props.C49
import Verif.Props.C50
import Mathlib.Algebra.BigOperators.Group.List.Basic

/-!
C51: elimination of the massless joints, squashing of the fixed joints.
-/

namespace AlMath

open Urdf

namespace Spec

/-- The mass of a link. Not in /repo: specification. -/
def linkMass (l : ULink) : ℝ := (l.inertials.map fun i => i.data.mass).sum

/-- The mass of the robot. Not in /repo: specification. -/
def totalMass (t : Tree) : ℝ := (t.links.map linkMass).sum

/-- A link without its inertials. Not in /repo: specification. -/
def bare (l : ULink) : String × List (Option OriginElem) × List (Option OriginElem) :=
  (l.name, l.visuals, l.collisions)

/-- Every link has at most one inertial, as URDF requires. Not in /repo: specification. -/
def OneInertial (t : Tree) : Prop := ∀ l ∈ t.links, l.inertials.length ≤ 1

/-- The joint made fixed if its name is in the list. Not in /repo: specification. -/
def markFixed (names : List String) (j : UJoint) : UJoint :=
  if j.name ∈ names then { j with type := some .fixed, axis := none } else j

/-- The link `b` is attached to the link `a` by fixed joints only. Not in /repo: specification. -/
def Rigidly (js : List UJoint) (a b : String) : Prop :=
  Relation.ReflTransGen (fun x y => ∃ k ∈ js, k.type = some .fixed ∧ k.parent = x ∧ k.child = y) a b

/-- A link with an inertial is attached to the link `a` by fixed joints only. Not in /repo:
specification. -/
def CarriesMass (t : Tree) (a : String) : Prop :=
  ∃ l ∈ t.links, l.inertials ≠ [] ∧ Rigidly t.joints a l.name

open Classical in
/-- The mass of the links attached to the link `a` by fixed joints only, itself included. Not in
/repo: specification. -/
noncomputable def rigidMass (js : List UJoint) (t : Tree) (a : String) : ℝ :=
  (t.links.map fun l => if Rigidly js a l.name then linkMass l else 0).sum

/-- The inertials of `t'` are those of `t`, each link taking the place of the links fixed to it. Links
that are not below the root keep theirs. Not in /repo: specification. -/
structure MassMoved (t t' : Tree) : Prop where
  carries : ∀ l ∈ t'.links, Reach t l.name → (∀ j ∈ t.joints, j.type = some .fixed → j.child ≠ l.name) →
    (l.inertials ≠ [] ↔ CarriesMass t l.name)
  amount : ∀ l ∈ t'.links, Reach t l.name → (∀ j ∈ t.joints, j.type = some .fixed → j.child ≠ l.name) →
    linkMass l = rigidMass t.joints t l.name
  emptied : ∀ l ∈ t'.links, Reach t l.name → (∃ j ∈ t.joints, j.type = some .fixed ∧ j.child = l.name) →
    l.inertials = []
  apart : ∀ l ∈ t'.links, ¬ Reach t l.name → l ∈ t.links

/-- The elements can be read: known joint types, well formed origins, positive masses. Not in
/repo: specification. -/
structure Readable (t : Tree) : Prop where
  type : ∀ j ∈ t.joints, j.type ≠ none
  origin : ∀ j ∈ t.joints, ∃ p, UPose.fromPtree j.origin = .ok p
  inertial : ∀ l ∈ t.links, ∀ i ∈ l.inertials, ∃ p, UPose.fromPtree i.origin = .ok p
  mass : ∀ l ∈ t.links, ∀ i ∈ l.inertials, 0 < i.data.mass

end Spec

open Spec

/-! ### Edition of links -/

theorem editLink_mem {t : Tree} {n : String} {f : ULink → ULink} {x : ULink} :
    x ∈ (t.editLink n f).links ↔ (∃ l ∈ t.links, l.name = n ∧ x = f l) ∨ (x ∈ t.links ∧ x.name ≠ n) := by
  simp only [Tree.editLink, List.mem_map]
  constructor
  · rintro ⟨l, hl, e⟩
    split_ifs at e with h
    · exact Or.inl ⟨l, hl, h, e.symm⟩
    · subst e; exact Or.inr ⟨hl, h⟩
  · rintro (⟨l, hl, h, e⟩ | ⟨hx, h⟩)
    · exact ⟨l, hl, by rw [if_pos h, e]⟩
    · exact ⟨x, hx, by rw [if_neg h]⟩

theorem editLink_bare {t : Tree} {n : String} {f : ULink → ULink} (hf : ∀ l, bare (f l) = bare l) :
    (t.editLink n f).links.map bare = t.links.map bare := by
  simp only [Tree.editLink, List.map_map]
  apply List.map_congr_left
  intro l _
  simp only [Function.comp_apply]
  split_ifs
  · exact hf l
  · rfl

theorem names_of_bare {t u : Tree} (h : u.links.map bare = t.links.map bare) :
    u.links.map ULink.name = t.links.map ULink.name := by
  have := congrArg (List.map Prod.fst) h
  simpa [bare, Function.comp_def] using this

theorem editLink_mass {t : Tree} (hn : (t.links.map ULink.name).Nodup) {l : ULink} (hl : l ∈ t.links)
    (f : ULink → ULink) :
    totalMass (t.editLink l.name f) = totalMass t - linkMass l + linkMass (f l) := by
  obtain ⟨links, joints, root⟩ := t
  simp only [totalMass, Tree.editLink] at *
  induction links with
  | nil => simp at hl
  | cons a links ih =>
    rw [List.map_cons, List.nodup_cons] at hn
    have hsame : ∀ ls : List ULink, (∀ x ∈ ls, x.name ≠ l.name) →
        ls.map (fun x => if x.name = l.name then f x else x) = ls := by
      intro ls h
      conv_rhs => rw [← List.map_id ls]
      apply List.map_congr_left
      intro x hx
      simp [h x hx]
    rcases List.mem_cons.1 hl with rfl | hl'
    · rw [List.map_cons, if_pos rfl, hsame links, List.map_cons, List.map_cons, List.sum_cons,
        List.sum_cons]
      · ring
      · intro x hx e
        exact hn.1 (List.mem_map.2 ⟨x, hx, e⟩)
    · have hne : a.name ≠ l.name := fun e => hn.1 (List.mem_map.2 ⟨l, hl', e.symm⟩)
      rw [List.map_cons, if_neg hne, List.map_cons, List.map_cons, List.sum_cons, List.sum_cons,
        ih hn.2 hl']
      ring

theorem link_eq {t : Tree} (hn : (t.links.map ULink.name).Nodup) {a b : ULink} (ha : a ∈ t.links)
    (hb : b ∈ t.links) (e : a.name = b.name) : a = b := List.inj_on_of_nodup_map hn ha hb e

/-! ### Squashing -/

theorem fromPtree_ne_ub (o : Option OriginElem) : UPose.fromPtree o ≠ .ub := by
  cases o with
  | none => simp [UPose.fromPtree]
  | some e =>
    obtain ⟨x, r⟩ := e
    cases x <;> cases r <;> simp [UPose.fromPtree, UPose.fromElem, getPoseChild]

theorem mergeInertial_mass {jo : Option OriginElem} {c : UInertial} {p : Option UInertial}
    {i : UInertial} (h : mergeInertial jo c p = .ok i) :
    i.data.mass = c.data.mass + (p.map fun p => p.data.mass).getD 0 := by
  unfold mergeInertial at h
  rw [Res.bind_eq_ok] at h
  obtain ⟨a, -, h⟩ := h
  rw [Res.bind_eq_ok] at h
  obtain ⟨b, -, h⟩ := h
  cases p with
  | none =>
    simp only [Res.ok.injEq] at h
    rw [← h]; simp
  | some p =>
    simp only [Res.bind_eq_ok] at h
    obtain ⟨q, -, r, hr, h⟩ := h
    simp only [Res.ok.injEq] at h
    rw [← h]
    unfold squashInertial at hr
    simp only at hr
    split_ifs at hr
    rw [Res.ok.injEq] at hr
    rw [← hr]
    simp [add_comm]

/-- Effect of a squash. Helper of the proofs. Not in /repo: specification. -/
structure Squashed (u u' : Tree) (j : UJoint) : Prop where
  joints : u'.joints = u.joints
  root : u'.root = u.root
  bare : u'.links.map Spec.bare = u.links.map Spec.bare
  mass : totalMass u' = totalMass u
  one : OneInertial u'
  child : ∀ l ∈ u'.links, l.name = j.child → l.inertials = []
  others : ∀ l ∈ u'.links, l.name ≠ j.child → l.name ≠ j.parent → l ∈ u.links
  parent : ∀ l ∈ u'.links, l.name = j.parent →
    (l.inertials ≠ [] ↔ ∃ l0 ∈ u.links, (l0.name = j.parent ∨ l0.name = j.child) ∧ l0.inertials ≠ [])
  amount : ∀ l ∈ u'.links, l.name = j.parent → ∀ p ∈ u.links, p.name = j.parent →
    ∀ c ∈ u.links, c.name = j.child → linkMass l = linkMass p + linkMass c

theorem squashJoint_ok {u u' : Tree} {j : UJoint} (h : u.squashJoint j = (.ok (), u'))
    (hn : (u.links.map ULink.name).Nodup) (ho : OneInertial u) (hne : j.parent ≠ j.child) :
    Squashed u u' j := by
  unfold Tree.squashJoint at h
  cases hc : u.findLink j.child with
  | none => simp [hc] at h
  | some c =>
    obtain ⟨hcm, hcn⟩ := findLink_some hc
    cases hci : c.inertials with
    | nil =>
      simp only [hc, hci, Prod.mk.injEq, true_and] at h
      subst h
      have hch : ∀ l ∈ u.links, l.name = j.child → l.inertials = [] := by
        intro l hl e
        rw [link_eq hn hl hcm (e.trans hcn.symm)]
        exact hci
      refine ⟨rfl, rfl, rfl, rfl, ho, hch, fun l hl _ _ => hl, fun l hl e => ?_, ?_⟩
      · constructor
        · exact fun h => ⟨l, hl, .inl e, h⟩
        · rintro ⟨l0, hl0, e0 | e0, h0⟩
          · rwa [link_eq hn hl hl0 (e.trans e0.symm)]
          · exact absurd (hch l0 hl0 e0) h0
      · intro l hl e p hp ep c' hc' ec
        rw [link_eq hn hl hp (e.trans ep.symm)]
        simp [linkMass, hch c' hc' ec]
    | cons ci rest =>
      have hrest : rest = [] := by
        have := ho c hcm
        rw [hci] at this
        simpa using this
      subst hrest
      cases hp : u.findLink j.parent with
      | none => simp [hc, hci, hp] at h
      | some p =>
        obtain ⟨hpm, hpn⟩ := findLink_some hp
        simp only [hc, hci, hp] at h
        cases hm : mergeInertial j.origin ci p.inertials.head? with
        | throws => simp [hm] at h
        | ub => simp [hm] at h
        | ok i =>
          simp only [hm, Prod.mk.injEq, true_and] at h
          have hmass := mergeInertial_mass hm
          have hb1 : ∀ l, Spec.bare (putInertial i l) = Spec.bare l := by
            intro l; unfold putInertial; split <;> rfl
          have hb2 : ∀ l : ULink, Spec.bare { l with inertials := [] } = Spec.bare l := fun l => rfl
          have hlen : ∀ l : ULink, l.inertials.length ≤ 1 → (putInertial i l).inertials = [i] := by
            intro l hl
            unfold putInertial
            rcases l with ⟨n, _ | ⟨a, _ | ⟨b, r⟩⟩, v, k⟩
            · rfl
            · rfl
            · simp at hl
          have hbare1 : (u.editLink j.parent (putInertial i)).links.map Spec.bare =
            u.links.map Spec.bare := editLink_bare hb1
          have hn1 : ((u.editLink j.parent (putInertial i)).links.map ULink.name).Nodup := by
            rw [names_of_bare hbare1]; exact hn
          have hcm1 : c ∈ (u.editLink j.parent (putInertial i)).links :=
            editLink_mem.2 (Or.inr ⟨hcm, by rw [hcn]; exact hne.symm⟩)
          have e1 : linkMass (putInertial i p) = i.data.mass := by
            rw [linkMass, hlen p (ho p hpm)]; simp
          have e2 : linkMass p = (p.inertials.head?.map fun p => p.data.mass).getD 0 := by
            have := ho p hpm
            rcases p with ⟨n, _ | ⟨a, _ | ⟨b, r⟩⟩, v, k⟩
            · simp [linkMass]
            · simp [linkMass]
            · simp at this
          have hmass1 : totalMass (u.editLink j.parent (putInertial i)) =
              totalMass u + ci.data.mass := by
            have := editLink_mass hn hpm (putInertial i)
            rw [hpn] at this
            rw [this, e1, e2, hmass]
            ring
          subst h
          refine ⟨rfl, rfl, (editLink_bare hb2).trans hbare1, ?_, ?_, ?_, ?_, ?_, ?_⟩
          · have := editLink_mass hn1 hcm1 (fun l => { l with inertials := [] })
            rw [hcn] at this
            rw [this, hmass1]
            have e1 : linkMass c = ci.data.mass := by simp [linkMass, hci]
            have e2 : linkMass { c with inertials := [] } = 0 := by simp [linkMass]
            rw [hcn] at e2
            rw [e1, e2]
            ring
          · intro l hl
            rcases editLink_mem.1 hl with ⟨l', _, _, rfl⟩ | ⟨hl', _⟩
            · simp
            · rcases editLink_mem.1 hl' with ⟨l', hl1, _, rfl⟩ | ⟨hl1, _⟩
              · rw [hlen l' (ho l' hl1)]; simp
              · exact ho l hl1
          · intro l hl e
            rcases editLink_mem.1 hl with ⟨l', _, _, rfl⟩ | ⟨_, h'⟩
            · rfl
            · exact absurd e h'
          · intro l hl h1 h2
            rcases editLink_mem.1 hl with ⟨l', _, e, rfl⟩ | ⟨hl', _⟩
            · exact absurd e h1
            · rcases editLink_mem.1 hl' with ⟨l', _, e, rfl⟩ | ⟨hl1, _⟩
              · have : (putInertial i l').name = l'.name := congrArg Prod.fst (hb1 l')
                exact absurd (this.trans e) h2
              · exact hl1
          · intro l hl e
            have h1 : l.inertials ≠ [] := by
              rcases editLink_mem.1 hl with ⟨l', _, e', rfl⟩ | ⟨hl', _⟩
              · exact absurd (e.symm.trans e') hne
              · rcases editLink_mem.1 hl' with ⟨l', hl1, e', rfl⟩ | ⟨_, h'⟩
                · rw [hlen l' (ho l' hl1)]; simp
                · exact absurd e h'
            exact ⟨fun _ => ⟨c, hcm, .inr hcn, by rw [hci]; simp⟩, fun _ => h1⟩
          · intro l hl e p' hp' ep c' hc' ec
            rw [link_eq hn hp' hpm (ep.trans hpn.symm), link_eq hn hc' hcm (ec.trans hcn.symm)]
            rcases editLink_mem.1 hl with ⟨l', _, e', rfl⟩ | ⟨hl', _⟩
            · exact absurd (e.symm.trans e') hne
            · rcases editLink_mem.1 hl' with ⟨l', hl1, e', rfl⟩ | ⟨_, h'⟩
              · rw [link_eq hn hl1 hpm (e'.trans hpn.symm), e1, e2, hmass]
                simp [linkMass, hci, add_comm]
              · exact absurd e h'

/-- A readable tree can be squashed, and stays readable. -/
theorem squashJoint_readable {u : Tree} {j : UJoint} (hr : Readable u) (ho : OneInertial u)
    (hj : ∃ p, UPose.fromPtree j.origin = .ok p) (hc : ∃ l ∈ u.links, l.name = j.child)
    (hp : ∃ l ∈ u.links, l.name = j.parent) :
    ∃ u', u.squashJoint j = (.ok (), u') ∧ Readable u' := by
  have find : ∀ n, (∃ l ∈ u.links, l.name = n) → ∃ l ∈ u.links, u.findLink n = some l := by
    rintro n ⟨l, hl, rfl⟩
    cases hf : u.findLink l.name with
    | none =>
      have := List.find?_eq_none.1 hf l hl
      simp at this
    | some y => exact ⟨y, (findLink_some hf).1, rfl⟩
  obtain ⟨c, hcm, hcf⟩ := find _ hc
  obtain ⟨p, hpm, hpf⟩ := find _ hp
  unfold Tree.squashJoint
  cases hci : c.inertials with
  | nil => exact ⟨u, by simp [hcf, hci], hr⟩
  | cons ci rest =>
    obtain ⟨pj, hpj⟩ := hj
    obtain ⟨pc, hpc⟩ := hr.inertial c hcm ci (by rw [hci]; simp)
    have hmc := hr.mass c hcm ci (by rw [hci]; simp)
    have key : ∃ i, mergeInertial j.origin ci p.inertials.head? = .ok i ∧ 0 < i.data.mass ∧
        ∃ q, UPose.fromPtree i.origin = .ok q := by
      have hput : ∀ (T : ETransform) (o : Option OriginElem), (∃ q, UPose.fromPtree o = .ok q) →
          ∃ q, UPose.fromPtree (putPose T o) = .ok q := by
        intro T o ⟨q, hq⟩
        have h1 : ∀ (x : Array3d) (o : Option OriginElem), (∃ q, UPose.fromPtree o = .ok q) →
            ∃ q, UPose.fromPtree (putXyz x o) = .ok q := by
          intro x o ⟨q, hq⟩
          cases o with
          | none => exact ⟨_, rfl⟩
          | some e =>
            obtain ⟨a, b⟩ := e
            cases a <;> cases b <;>
              simp [UPose.fromPtree, UPose.fromElem, getPoseChild, putXyz] at hq ⊢
        have h2 : ∀ (x : Array3d) (o : Option OriginElem), (∃ q, UPose.fromPtree o = .ok q) →
            ∃ q, UPose.fromPtree (putRpy x o) = .ok q := by
          intro x o ⟨q, hq⟩
          cases o with
          | none => exact ⟨_, rfl⟩
          | some e =>
            obtain ⟨a, b⟩ := e
            cases a <;> cases b <;>
              simp [UPose.fromPtree, UPose.fromElem, getPoseChild, putRpy] at hq ⊢
        unfold putPose
        dsimp only
        split_ifs
        · exact h2 _ _ (h1 _ _ ⟨q, hq⟩)
        · exact h2 _ _ ⟨q, hq⟩
        · exact h1 _ _ ⟨q, hq⟩
        · exact ⟨q, hq⟩
      unfold mergeInertial
      rw [hpj, hpc]
      simp only [Res.bind_ok]
      cases hpi : p.inertials.head? with
      | none => exact ⟨_, rfl, hmc, hput _ _ ⟨pc, hpc⟩⟩
      | some q =>
        have hq : q ∈ p.inertials := List.mem_of_mem_head? hpi
        obtain ⟨pp, hpp⟩ := hr.inertial p hpm q hq
        have hmq := hr.mass p hpm q hq
        have hm : q.data.mass + ci.data.mass ≠ 0 := by positivity
        simp only [hpp, Res.bind_ok, squashInertial]
        rw [if_neg hm]
        simp only [Res.bind_ok]
        refine ⟨_, rfl, ?_, hput _ _ ⟨_, rfl⟩⟩
        simp only
        positivity
    obtain ⟨i, hi, him, hio⟩ := key
    refine ⟨_, by simp only [hcf, hci, hpf, hi]; rfl, ?_⟩
    have hmem : ∀ l ∈ ((u.editLink j.parent (putInertial i)).editLink j.child
        fun l => { l with inertials := [] }).links, ∀ k ∈ l.inertials,
        k = i ∨ ∃ l' ∈ u.links, k ∈ l'.inertials := by
      intro l hl k hk
      rcases editLink_mem.1 hl with ⟨l', _, _, rfl⟩ | ⟨hl', _⟩
      · simp at hk
      · rcases editLink_mem.1 hl' with ⟨l', hl1, _, rfl⟩ | ⟨hl1, _⟩
        · unfold putInertial at hk
          have := ho l' hl1
          rcases l' with ⟨n, _ | ⟨a, _ | ⟨b, r⟩⟩, v, w⟩
          · simp at hk; exact Or.inl hk
          · simp at hk; exact Or.inl hk
          · simp at this
        · exact Or.inr ⟨l, hl1, hk⟩
    refine ⟨hr.type, hr.origin, ?_, ?_⟩
    · intro l hl k hk
      rcases hmem l hl k hk with rfl | ⟨l', hl', hk'⟩
      exacts [hio, hr.inertial l' hl' k hk']
    · intro l hl k hk
      rcases hmem l hl k hk with rfl | ⟨l', hl', hk'⟩
      exacts [him, hr.mass l' hl' k hk']

/-! ### Loops on finished joints -/

/-- The finished joints of a trace. Helper of the proofs. Not in /repo: specification. -/
def fins (tr : List Event) : List UJoint :=
  tr.filterMap fun
    | .disc _ => none
    | .fin j => some j

theorem fins_disc (j : UJoint) (a : List Event) : fins (.disc j :: a) = fins a := rfl

theorem fins_fin (j : UJoint) (a : List Event) : fins (.fin j :: a) = j :: fins a := rfl

theorem fins_mem (j : UJoint) (a : List Event) : j ∈ fins a ↔ Event.fin j ∈ a := by
  induction a with
  | nil => simp [fins]
  | cons e a ih =>
    cases e with
    | disc k => rw [fins_disc, ih]; simp
    | fin k => rw [fins_fin, List.mem_cons, List.mem_cons, ih]; simp

theorem fins_nodup {a : List Event} (h : a.Nodup) : (fins a).Nodup := by
  induction a with
  | nil => simp [fins]
  | cons e a ih =>
    rw [List.nodup_cons] at h
    cases e with
    | disc k => rw [fins_disc]; exact ih h.2
    | fin k =>
      rw [fins_fin, List.nodup_cons, fins_mem]
      exact ⟨h.1, ih h.2⟩

/-- Finishing joints in turn. Helper of the proofs. Not in /repo: specification. -/
def runFins {σ : Type} (v : Visitor σ) : List UJoint → σ → Res Unit × σ
  | [], s => (.ok (), s)
  | j :: l, s =>
    match v.finish j s with
    | (.ok (), s1) => runFins v l s1
    | (.throws, s1) => (.throws, s1)
    | (.ub, s1) => (.ub, s1)

theorem runCalls_fins {σ : Type} (v : Visitor σ) (hv : ∀ j s, v.discover j s = (.ok true, s))
    (tr : List Event) (s : σ) : runCalls v tr s = runFins v (fins tr) s := by
  induction tr generalizing s with
  | nil => rfl
  | cons e tr ih =>
    cases e with
    | disc j => rw [runCalls, hv, fins_disc]; exact ih s
    | fin j =>
      rw [runCalls, fins_fin, runFins]
      rcases v.finish j s with ⟨_ | _ | _, s1⟩
      · exact ih s1
      · rfl
      · rfl

/-- The order of the finished joints: all are below the root, and the joint above comes after.
Helper of the proofs. Not in /repo: specification. -/
structure PostOrder (t : Tree) (L : List UJoint) : Prop where
  nodup : L.Nodup
  mem : ∀ j, j ∈ L ↔ j ∈ t.joints ∧ Reach t j.child
  order : ∀ a j b, L = a ++ j :: b → ∀ k ∈ t.joints, k.child = j.parent → k ∉ a

theorem traverse_fins (t : Tree) (hc : Consistent' t) :
    ∃ L, PostOrder t L ∧ ∃ n0, ∀ n ≥ n0, ∀ (σ : Type) (v : Visitor σ),
      (∀ j s, v.discover j s = (.ok true, s)) → ∀ s, traverseJoints v t n s = some (runFins v L s) := by
  obtain ⟨tr, hC, n0, hn0⟩ := C47_traverse t hc fun _ => true
  refine ⟨fins tr, ⟨fins_nodup hC.nodup, ?_, ?_⟩, n0, ?_⟩
  · intro j
    rw [fins_mem]
    constructor
    · intro h
      have hj := ((hC.mem_fin j).1 h).1
      exact ⟨hj, (C47_all_visited t hc _ hC j hj).2.1 h⟩
    · rintro ⟨h1, h2⟩
      exact (C47_all_visited t hc _ hC j h1).2.2 h2
  · intro a j b e k hk hkj hka
    have hkt : Event.fin k ∈ tr := by rw [← fins_mem, e]; simp [hka]
    have hjt : Event.fin j ∈ tr := by rw [← fins_mem, e]; simp
    have hs := (C47_parent_first t _ tr hC k j ((hC.mem_fin k).1 hkt) rfl
      ((hC.mem_fin j).1 hjt).1 hkj.symm).2
    have hs2 : [j, k].Sublist (fins tr) := by
      have := hs.filterMap (fun e : Event => match e with | .disc _ => none | .fin j => some j)
      simpa [fins] using this
    have hnd := fins_nodup hC.nodup
    rw [e] at hs2 hnd
    have hja : j ∉ a := by
      intro h
      rw [List.nodup_append] at hnd
      exact hnd.2.2 _ h _ (by simp) rfl
    rw [List.sublist_append_iff] at hs2
    obtain ⟨l1, l2, e1, h1, h2⟩ := hs2
    rcases l1 with _ | ⟨x, l1⟩
    · rw [List.nil_append] at e1
      rw [← e1] at h2
      have := List.cons_sublist_cons.1 h2
      have hkb : k ∈ b := by simpa using this
      rw [List.nodup_append] at hnd
      exact hnd.2.2 _ hka _ (by simp [hkb]) rfl
    · rw [List.cons_append, List.cons.injEq] at e1
      exact hja (h1.subset (by rw [e1.1]; simp))
  · intro n hn σ v hv s
    rw [← runCalls_fins v hv]
    refine hn0 n hn σ v ?_ s
    intro j s b s' h
    rw [hv j s] at h
    simp only [Prod.mk.injEq, Res.ok.injEq] at h
    exact h.1.symm

/-! ### Massless joints -/

/-- Where the inertials are once the joints `F` were squashed. Helper of the proofs. Not in /repo:
specification. -/
structure Weight (t : Tree) (F : List UJoint) (u : Tree) : Prop where
  present : ∀ l ∈ u.links, (l.inertials ≠ [] ↔ (∀ k ∈ F, k.type = some .fixed → k.child ≠ l.name) ∧
    ∃ l0 ∈ t.links, l0.inertials ≠ [] ∧ Rigidly F l.name l0.name)
  amount : ∀ l ∈ u.links, (∀ k ∈ F, k.type = some .fixed → k.child ≠ l.name) →
    linkMass l = rigidMass F t l.name
  apart : ∀ l ∈ u.links, ¬ Reach t l.name → l ∈ t.links

/-- What holds once the joints in `F` are finished. Helper of the proofs. Not in /repo:
specification. -/
structure MassInv (t : Tree) (F : List UJoint) (u : Tree) (names : List String) : Prop where
  joints : u.joints = t.joints.map (markFixed names)
  root : u.root = t.root
  bare : u.links.map Spec.bare = t.links.map Spec.bare
  mass : totalMass u = totalMass t
  one : OneInertial u
  nodup : names.Nodup
  listed : ∀ x ∈ names, ∃ j ∈ F, j.name = x ∧ j.type ≠ some .fixed
  fixed : ∀ j ∈ F, j.type = some .fixed ∨ j.name ∈ names →
    ∀ l ∈ u.links, l.name = j.child → l.inertials = []
  mobile : ∀ j ∈ F, j.type ≠ some .fixed → j.name ∉ names →
    ∀ l ∈ u.links, l.name = j.child → l.inertials ≠ []
  weight : Weight t F u

theorem markFixed_name (names : List String) (j : UJoint) : (markFixed names j).name = j.name := by
  unfold markFixed; split_ifs <;> rfl

theorem find_markFixed {t u : Tree} (hn : (t.joints.map UJoint.name).Nodup) {names : List String}
    (hu : u.joints = t.joints.map (markFixed names)) {j : UJoint} (hj : j ∈ t.joints) :
    u.findJoint j.name = some (markFixed names j) := by
  have h1 : (u.joints.map UJoint.name).Nodup := by
    rw [hu, List.map_map]
    have : UJoint.name ∘ markFixed names = UJoint.name := funext fun j => markFixed_name names j
    rw [this]; exact hn
  have h2 : markFixed names j ∈ u.joints := by rw [hu]; exact List.mem_map.2 ⟨j, hj, rfl⟩
  have := find_name h1 h2
  rw [markFixed_name] at this
  exact this

theorem mem_names_of_bare {t u : Tree} (h : u.links.map Spec.bare = t.links.map Spec.bare) (n : String) :
    (∃ l ∈ u.links, l.name = n) ↔ ∃ l ∈ t.links, l.name = n := by
  have := names_of_bare h
  rw [← List.mem_map, ← List.mem_map, this]

theorem rigidly_mobile {F : List UJoint} {j : UJoint} (hj : j.type ≠ some .fixed) :
    Rigidly (F ++ [j]) = Rigidly F := by
  unfold Rigidly
  have : (fun x y => ∃ k ∈ F ++ [j], k.type = some .fixed ∧ k.parent = x ∧ k.child = y) =
      (fun x y => ∃ k ∈ F, k.type = some .fixed ∧ k.parent = x ∧ k.child = y) := by
    funext x y
    apply propext
    constructor
    · rintro ⟨k, hk, h1, h2⟩
      rcases List.mem_append.1 hk with hk | hk
      · exact ⟨k, hk, h1, h2⟩
      · rw [List.mem_singleton] at hk
        exact absurd (hk ▸ h1) hj
    · rintro ⟨k, hk, h⟩
      exact ⟨k, List.mem_append_left _ hk, h⟩
  rw [this]

theorem rigidly_mono {F G : List UJoint} (hs : ∀ k ∈ F, k ∈ G) {a b : String} (h : Rigidly F a b) :
    Rigidly G a b := by
  induction h with
  | refl => exact .refl
  | tail _ hs' ih =>
    obtain ⟨k, hk, h⟩ := hs'
    exact .tail ih ⟨k, hs k hk, h⟩

theorem rigidly_fixed {F : List UJoint} {j : UJoint} (hj : j.type = some .fixed)
    (hpar : ∀ k ∈ F, k.child ≠ j.parent) (a b : String) :
    Rigidly (F ++ [j]) a b ↔ Rigidly F a b ∨ (a = j.parent ∧ Rigidly F j.child b) := by
  have up : ∀ x y, Rigidly F x y → Rigidly (F ++ [j]) x y := fun x y h =>
    rigidly_mono (fun k hk => List.mem_append_left _ hk) h
  constructor
  · intro h
    induction h using Relation.ReflTransGen.head_induction_on with
    | refl => exact .inl .refl
    | @head x y hs _ ih =>
      obtain ⟨k, hk, h1, h2, h3⟩ := hs
      rcases List.mem_append.1 hk with hk | hk
      · rcases ih with ih | ⟨e, -⟩
        · exact .inl (.head ⟨k, hk, h1, h2, h3⟩ ih)
        · exact absurd (h3.trans e) (hpar k hk)
      · rw [List.mem_singleton] at hk
        subst hk
        right
        refine ⟨h2.symm, ?_⟩
        rcases ih with ih | ⟨-, ih⟩
        · rw [h3]; exact ih
        · exact ih
  · rintro (h | ⟨rfl, h⟩)
    · exact up _ _ h
    · exact .head ⟨j, by simp, hj, rfl, rfl⟩ (up _ _ h)

theorem rigidly_reach {t : Tree} {a b : String} (h : Rigidly t.joints a b) (ha : Reach t a) {L : List UJoint}
    (hL : ∀ j ∈ t.joints, Reach t j.child → j ∈ L) : Rigidly L a b := by
  induction h using Relation.ReflTransGen.head_induction_on with
  | refl => exact .refl
  | @head x y hs _ ih =>
    obtain ⟨k, hk, h1, rfl, rfl⟩ := hs
    have hr : Reach t k.child := reach_child hk ha
    exact .head ⟨k, hL k hk hr, h1, rfl, rfl⟩ (ih hr)

theorem weight_mobile {t : Tree} {F : List UJoint} {u : Tree} {j : UJoint} (hj : j.type ≠ some .fixed)
    (h : Weight t F u) : Weight t (F ++ [j]) u := by
  have hall : ∀ n : String, (∀ k ∈ F ++ [j], k.type = some .fixed → k.child ≠ n) ↔
      ∀ k ∈ F, k.type = some .fixed → k.child ≠ n := by
    intro n
    constructor
    · exact fun h k hk => h k (List.mem_append_left _ hk)
    · intro h k hk hkf
      rcases List.mem_append.1 hk with hk | hk
      · exact h k hk hkf
      · rw [List.mem_singleton] at hk
        exact absurd (hk ▸ hkf) hj
  constructor
  · intro l hl
    rw [rigidly_mobile hj, hall]
    exact h.present l hl
  · intro l hl
    rw [hall, rigidMass, rigidly_mobile hj]
    exact h.amount l hl
  · exact h.apart

theorem rigidly_comparable {t : Tree} (hc : Consistent' t) {F : List UJoint} (hF : ∀ k ∈ F, k ∈ t.joints)
    {a b x : String} (ha : Rigidly F a x) (hb : Rigidly F b x) : Rigidly F a b ∨ Rigidly F b a := by
  induction ha with
  | refl => exact .inr hb
  | @tail y z hay hyz ih =>
    rcases Relation.ReflTransGen.cases_tail hb with e | ⟨w, hbw, hwz⟩
    · left
      rw [← e]
      exact .tail hay hyz
    · obtain ⟨k, hk, _, h2, h3⟩ := hyz
      obtain ⟨k', hk', _, h2', h3'⟩ := hwz
      have := List.inj_on_of_nodup_map hc.one_parent (hF k hk) (hF k' hk') (h3.trans h3'.symm)
      subst this
      rw [h2] at h2'
      rw [← h2'] at hbw
      exact ih hbw

theorem rigidly_into {F : List UJoint} {a b : String} (h : Rigidly F a b)
    (hb : ∀ k ∈ F, k.child ≠ b) : a = b := by
  rcases Relation.ReflTransGen.cases_tail h with e | ⟨w, -, k, hk, -, -, e⟩
  · exact e.symm
  · exact absurd e (hb k hk)

theorem reach_up {t : Tree} (hc : Consistent' t) {j : UJoint} (hj : j ∈ t.joints) (hr : Reach t j.child) :
    Reach t j.parent := by
  rcases Relation.ReflTransGen.cases_head hr with e | ⟨w, ⟨k, hk, e1, e2⟩, h⟩
  · exact absurd e (hc.root_not_child j hj)
  · rw [List.inj_on_of_nodup_map hc.one_parent hk hj e1] at e2
    rw [e2]
    exact h

theorem weight_squash {t : Tree} (hc : Consistent' t) {F : List UJoint} (hF : ∀ k ∈ F, k ∈ t.joints)
    {u u' : Tree} {j : UJoint} (hj : j ∈ t.joints) (hr : Reach t j.child) (hbare : u.links.map Spec.bare = t.links.map Spec.bare)
    (hty : j.type = some .fixed) (hpar : ∀ k ∈ F, k.child ≠ j.parent)
    (hcne : ∀ k ∈ F, k.child ≠ j.child) (hne : j.parent ≠ j.child) (hS : Squashed u u' j)
    (hW : Weight t F u) : Weight t (F ++ [j]) u' := by
  have hall : ∀ n : String, n ≠ j.child →
      ((∀ k ∈ F ++ [j], k.type = some .fixed → k.child ≠ n) ↔
        ∀ k ∈ F, k.type = some .fixed → k.child ≠ n) := by
    intro n hn
    constructor
    · exact fun h k hk => h k (List.mem_append_left _ hk)
    · intro h k hk hkf
      rcases List.mem_append.1 hk with hk | hk
      · exact h k hk hkf
      · rw [List.mem_singleton] at hk
        rw [hk]; exact hn.symm
  obtain ⟨p, hp, ep⟩ := (mem_names_of_bare hbare j.parent).2 (hc.parents j hj)
  obtain ⟨c, hcm, ec⟩ := (mem_names_of_bare hbare j.child).2 (hc.children j hj)
  constructor
  · intro l hl
    by_cases h1 : l.name = j.child
    · rw [hS.child l hl h1]
      refine ⟨fun h => absurd rfl h, fun h => ?_⟩
      exact absurd h1.symm (h.1 j (by simp) hty)
    · rw [hall _ h1]
      by_cases h2 : l.name = j.parent
      · rw [hS.parent l hl h2, h2]
        constructor
        · rintro ⟨l0, hl0, e0 | e0, h0⟩
          · obtain ⟨g1, l1, hl1, g2, g3⟩ := (hW.present l0 hl0).1 h0
            rw [e0] at g1 g3
            exact ⟨g1, l1, hl1, g2, (rigidly_fixed hty hpar _ _).2 (.inl g3)⟩
          · obtain ⟨-, l1, hl1, g2, g3⟩ := (hW.present l0 hl0).1 h0
            rw [e0] at g3
            exact ⟨fun k hk _ => hpar k hk, l1, hl1, g2,
              (rigidly_fixed hty hpar _ _).2 (.inr ⟨rfl, g3⟩)⟩
        · rintro ⟨g1, l1, hl1, g2, g3⟩
          rcases (rigidly_fixed hty hpar _ _).1 g3 with g3 | ⟨-, g3⟩
          · refine ⟨p, hp, .inl ep, (hW.present p hp).2 ⟨?_, l1, hl1, g2, ?_⟩⟩
            · rw [ep]; exact g1
            · rw [ep]; exact g3
          · refine ⟨c, hcm, .inr ec, (hW.present c hcm).2 ⟨?_, l1, hl1, g2, ?_⟩⟩
            · rw [ec]; exact fun k hk _ => hcne k hk
            · rw [ec]; exact g3
      · rw [hW.present l (hS.others l hl h1 h2)]
        refine and_congr_right fun _ => ?_
        constructor
        · rintro ⟨l1, hl1, g2, g3⟩
          exact ⟨l1, hl1, g2, (rigidly_fixed hty hpar _ _).2 (.inl g3)⟩
        · rintro ⟨l1, hl1, g2, g3⟩
          rcases (rigidly_fixed hty hpar _ _).1 g3 with g3 | ⟨e, -⟩
          · exact ⟨l1, hl1, g2, g3⟩
          · exact absurd e h2
  · intro l hl hno
    by_cases h1 : l.name = j.child
    · exact absurd h1.symm (hno j (by simp) hty)
    · rw [hall _ h1] at hno
      by_cases h2 : l.name = j.parent
      · rw [hS.amount l hl h2 p hp ep c hcm ec,
          hW.amount p hp (by rw [ep]; exact fun k hk _ => hpar k hk),
          hW.amount c hcm (by rw [ec]; exact fun k hk _ => hcne k hk), ep, ec, h2]
        unfold rigidMass
        rw [← List.sum_map_add]
        congr 1
        apply List.map_congr_left
        intro x _
        have hdis : ¬ (Rigidly F j.parent x.name ∧ Rigidly F j.child x.name) := by
          rintro ⟨g1, g2⟩
          rcases rigidly_comparable hc hF g1 g2 with g | g
          · exact hne (rigidly_into g hcne)
          · exact hne (rigidly_into g hpar).symm
        have hiff := rigidly_fixed hty hpar j.parent x.name
        by_cases g1 : Rigidly F j.parent x.name
        · have g2 : ¬ Rigidly F j.child x.name := fun g => hdis ⟨g1, g⟩
          rw [if_pos g1, if_neg g2, if_pos (hiff.2 (.inl g1)), add_zero]
        · by_cases g2 : Rigidly F j.child x.name
          · rw [if_neg g1, if_pos g2, if_pos (hiff.2 (.inr ⟨rfl, g2⟩)), zero_add]
          · rw [if_neg g1, if_neg g2, if_neg, zero_add]
            exact fun g => (hiff.1 g).elim g1 fun g => g2 g.2
      · rw [hW.amount l (hS.others l hl h1 h2) hno]
        unfold rigidMass
        congr 1
        apply List.map_congr_left
        intro x _
        have hiff := rigidly_fixed hty hpar l.name x.name
        by_cases g1 : Rigidly F l.name x.name
        · rw [if_pos g1, if_pos (hiff.2 (.inl g1))]
        · rw [if_neg g1, if_neg]
          exact fun g => (hiff.1 g).elim g1 fun g => h2 g.1
  · intro l hl hn
    refine hW.apart l (hS.others l hl ?_ ?_) hn
    · exact fun e => hn (e ▸ hr)
    · exact fun e => hn (e ▸ reach_up hc hj hr)

theorem weight_moved {t : Tree} {L : List UJoint}
    (hL : ∀ j, j ∈ L ↔ j ∈ t.joints ∧ Reach t j.child) {u : Tree} (hW : Weight t L u) :
    MassMoved t u := by
  have hiff : ∀ a, Reach t a → ∀ b, Rigidly L a b ↔ Rigidly t.joints a b := fun a ha b =>
    ⟨rigidly_mono fun k hk => ((hL k).1 hk).1, fun h => rigidly_reach h ha fun j hj hr => (hL j).2 ⟨hj, hr⟩⟩
  refine ⟨fun l hl hr hno => ?_, fun l hl hr hno => ?_, ?_, hW.apart⟩
  · rw [hW.present l hl]
    constructor
    · rintro ⟨-, l0, hl0, h1, h2⟩
      exact ⟨l0, hl0, h1, (hiff _ hr _).1 h2⟩
    · rintro ⟨l0, hl0, h1, h2⟩
      exact ⟨fun k hk => hno k ((hL k).1 hk).1, l0, hl0, h1, (hiff _ hr _).2 h2⟩
  · rw [hW.amount l hl fun k hk => hno k ((hL k).1 hk).1]
    unfold rigidMass
    congr 1
    apply List.map_congr_left
    intro x _
    by_cases g : Rigidly L l.name x.name
    · rw [if_pos g, if_pos ((hiff _ hr _).1 g)]
    · rw [if_neg g, if_neg fun g' => g ((hiff _ hr _).2 g')]
  · rintro l hl hr ⟨j, hj, hf, e⟩
    by_contra hne
    exact ((hW.present l hl).1 hne).1 j ((hL j).2 ⟨hj, e ▸ hr⟩) hf e

/-- One joint. -/
theorem inv_step {t : Tree} (hc : Consistent' t) {F : List UJoint} {u : Tree} {names : List String}
    (hI : MassInv t F u names) {j : UJoint} (hj : j ∈ t.joints) (hr : Reach t j.child) (hjF : j ∉ F)
    (hF : ∀ k ∈ F, k ∈ t.joints) (hpar : ∀ k ∈ F, k.child ≠ j.parent) {u' : Tree}
    {names' : List String} (h : masslessVisitor.finish j (u, names) = (.ok (), u', names')) :
    MassInv t (F ++ [j]) u' names' := by
  have hjn : j.name ∉ names := by
    intro hm
    obtain ⟨k, hk, e, -⟩ := hI.listed _ hm
    exact hjF (by rwa [List.inj_on_of_nodup_map hc.joints_nodup (hF k hk) hj e] at hk)
  have hfind : u.findJoint j.name = some j := by
    rw [find_markFixed hc.joints_nodup hI.joints hj]
    simp [markFixed, hjn]
  have hnd : (u.links.map ULink.name).Nodup := by rw [names_of_bare hI.bare]; exact hc.links_nodup
  have hne : j.parent ≠ j.child := by
    intro e
    exact no_cycle hc hr (.single ⟨j, hj, rfl, e⟩)
  have hcne : ∀ k ∈ F, k.child ≠ j.child := by
    intro k hk e
    exact hjF (by rwa [List.inj_on_of_nodup_map hc.one_parent (hF k hk) hj e] at hk)
  simp only [masslessVisitor, hfind] at h
  cases hty : j.type with
  | none => simp [hty] at h
  | some ty =>
    by_cases hfx : ty = .fixed
    · subst hfx
      simp only [hty, Prod.mk.injEq] at h
      obtain ⟨h1, h2, rfl⟩ := h
      have hsq : u.squashJoint j = (.ok (), u') := Prod.ext h1 h2
      have hS := squashJoint_ok hsq hnd hI.one hne
      refine ⟨hS.joints.trans hI.joints, hS.root.trans hI.root, hS.bare.trans hI.bare,
        hS.mass.trans hI.mass, hS.one, hI.nodup, ?_, ?_, ?_, ?_⟩
      · intro x hx
        obtain ⟨k, hk, e⟩ := hI.listed x hx
        exact ⟨k, by simp [hk], e⟩
      · intro k hk hkt l hl e
        rcases List.mem_append.1 hk with hk | hk
        · refine hI.fixed k hk hkt l (hS.others l hl ?_ ?_) e
          · rw [e]; exact hcne k hk
          · rw [e]; exact hpar k hk
        · rw [List.mem_singleton] at hk
          rw [hk] at e
          exact hS.child l hl e
      · intro k hk hkt hkn l hl e
        rcases List.mem_append.1 hk with hk | hk
        · refine hI.mobile k hk hkt hkn l (hS.others l hl ?_ ?_) e
          · rw [e]; exact hcne k hk
          · rw [e]; exact hpar k hk
        · rw [List.mem_singleton] at hk
          rw [hk] at hkt
          exact absurd hty hkt
      · exact weight_squash hc hF hj hr hI.bare hty hpar hcne hne hS hI.weight
    · cases hfl : u.findLink j.child with
      | none => simp [hty, hfl] at h
      | some c =>
        obtain ⟨hcm, hcn⟩ := findLink_some hfl
        have hmatch : (u', names') = if c.inertials = [] then
            ((u.makeJointFixed j.name).2, names ++ [j.name]) else (u, names) := by
          cases hci : c.inertials <;> cases ty <;>
            simp_all [Prod.ext_iff]
        have hfx' : j.type ≠ some .fixed := by rw [hty]; simpa using hfx
        have hmob := weight_mobile hfx' hI.weight
        cases hci : c.inertials with
        | nil =>
          rw [if_pos hci, Prod.mk.injEq] at hmatch
          obtain ⟨rfl, rfl⟩ := hmatch
          have hmf : (u.makeJointFixed j.name).2 =
              u.editJoint j.name fun j => { j with type := some .fixed, axis := none } := by
            simp [Tree.makeJointFixed, hfind]
          rw [hmf]
          refine ⟨?_, hI.root, hI.bare, hI.mass, hI.one, ?_, ?_, ?_, ?_, ⟨hmob.present, hmob.amount, hmob.apart⟩⟩
          · simp only [Tree.editJoint, hI.joints, List.map_map]
            apply List.map_congr_left
            intro k hk
            simp only [Function.comp_apply, markFixed_name]
            by_cases hkj : k.name = j.name
            · rw [List.inj_on_of_nodup_map hc.joints_nodup hk hj hkj]
              simp [markFixed, hjn]
            · rw [if_neg hkj]
              simp [markFixed, hkj]
          · rw [List.nodup_append]
            refine ⟨hI.nodup, by simp, ?_⟩
            intro a ha b hb e
            rw [List.mem_singleton.1 hb] at e
            exact hjn (e ▸ ha)
          · intro x hx
            rcases List.mem_append.1 hx with hx | hx
            · obtain ⟨k, hk, e⟩ := hI.listed x hx
              exact ⟨k, by simp [hk], e⟩
            · rw [List.mem_singleton] at hx
              exact ⟨j, by simp, hx.symm, hfx'⟩
          · intro k hk hkt l hl e
            rcases List.mem_append.1 hk with hk | hk
            · refine hI.fixed k hk ?_ l hl e
              rcases hkt with hkt | hkt
              · exact Or.inl hkt
              · rcases List.mem_append.1 hkt with hkt | hkt
                · exact Or.inr hkt
                · rw [List.mem_singleton] at hkt
                  exact absurd hk (by
                    rw [List.inj_on_of_nodup_map hc.joints_nodup (hF k hk) hj hkt]; exact hjF)
            · rw [List.mem_singleton] at hk
              rw [hk] at e
              rw [link_eq hnd hl hcm (e.trans hcn.symm)]
              exact hci
          · intro k hk hkt hkn l hl e
            rcases List.mem_append.1 hk with hk | hk
            · exact hI.mobile k hk hkt (fun h => hkn (by simp [h])) l hl e
            · rw [List.mem_singleton] at hk
              exact absurd (by simp [hk]) hkn
        | cons ci rest =>
          rw [if_neg (by rw [hci]; simp), Prod.mk.injEq] at hmatch
          obtain ⟨rfl, rfl⟩ := hmatch
          refine ⟨hI.joints, hI.root, hI.bare, hI.mass, hI.one, hI.nodup, ?_, ?_, ?_, hmob⟩
          · intro x hx
            obtain ⟨k, hk, e⟩ := hI.listed x hx
            exact ⟨k, by simp [hk], e⟩
          · intro k hk hkt l hl e
            rcases List.mem_append.1 hk with hk | hk
            · exact hI.fixed k hk hkt l hl e
            · rw [List.mem_singleton] at hk
              subst hk
              rcases hkt with hkt | hkt
              · exact absurd hkt hfx'
              · exact absurd hkt hjn
          · intro k hk hkt hkn l hl e
            rcases List.mem_append.1 hk with hk | hk
            · exact hI.mobile k hk hkt hkn l hl e
            · rw [List.mem_singleton] at hk
              rw [hk] at e
              rw [link_eq hnd hl hcm (e.trans hcn.symm), hci]
              simp

theorem inv_loop {t : Tree} (hc : Consistent' t) (L : List UJoint) (hL : PostOrder t L)
    (a b : List UJoint) (e : L = a ++ b) (u : Tree) (names : List String) (hI : MassInv t a u names)
    {u' : Tree} {names' : List String}
    (h : runFins masslessVisitor b (u, names) = (.ok (), u', names')) : MassInv t L u' names' := by
  induction b generalizing a u names with
  | nil =>
    simp only [runFins, Prod.mk.injEq, true_and] at h
    obtain ⟨rfl, rfl⟩ := h
    rw [e, List.append_nil]
    exact hI
  | cons j b ih =>
    rw [runFins] at h
    rcases hf : masslessVisitor.finish j (u, names) with ⟨_ | _ | _, s1⟩
    · rw [hf] at h
      obtain ⟨hj, hr⟩ := (hL.mem j).1 (by rw [e]; simp)
      have hnd := hL.nodup
      rw [e, List.nodup_append] at hnd
      have hjF : j ∉ a := fun h' => hnd.2.2 _ h' _ (by simp) rfl
      have hF : ∀ k ∈ a, k ∈ t.joints := fun k hk => ((hL.mem k).1 (by rw [e]; simp [hk])).1
      have := inv_step hc hI hj hr hjF hF
        (fun k hk e' => hL.order a j b e k (hF k hk) e' hk) (u' := s1.1) (names' := s1.2) hf
      exact ih (a ++ [j]) (by rw [e]; simp) s1.1 s1.2 this h
    · rw [hf] at h; simp at h
    · rw [hf] at h; simp at h

theorem weight_start {t : Tree} (hn : (t.links.map ULink.name).Nodup) : Weight t [] t := by
  have hnil : ∀ a b : String, Rigidly [] a b ↔ a = b := by
    intro a b
    constructor
    · exact fun h => rigidly_into h (by simp)
    · rintro rfl; exact .refl
  constructor
  · intro l hl
    constructor
    · exact fun h => ⟨by simp, l, hl, h, .refl⟩
    · rintro ⟨-, l0, hl0, h, hp⟩
      rwa [link_eq hn hl hl0 ((hnil _ _).1 hp)]
  · intro l hl _
    unfold rigidMass
    simp only [hnil]
    generalize hL : t.links = L at hn hl
    clear hL
    induction L with
    | nil => simp at hl
    | cons x L ih =>
      rw [List.map_cons, List.nodup_cons] at hn
      rw [List.map_cons, List.sum_cons]
      rcases List.mem_cons.1 hl with rfl | hl
      · have h0 : (L.map fun l0 => if l.name = l0.name then linkMass l0 else 0) = L.map fun _ => 0 := by
          apply List.map_congr_left
          intro y hy
          rw [if_neg]
          exact fun e => hn.1 (by rw [e]; exact List.mem_map.2 ⟨y, hy, rfl⟩)
        rw [h0]
        simp
      · rw [if_neg, zero_add]
        · exact ih hn.2 hl
        · exact fun e => hn.1 (by rw [← e]; exact List.mem_map.2 ⟨l, hl, rfl⟩)
  · exact fun l hl _ => hl

theorem massInv_start {t : Tree} (hn : (t.links.map ULink.name).Nodup) (ho : OneInertial t) :
    MassInv t [] t [] := by
  refine ⟨?_, rfl, rfl, rfl, ho, by simp, by simp, by simp, by simp, weight_start hn⟩
  have : markFixed [] = id := by funext j; simp [markFixed]
  rw [this, List.map_id]

/-- If `makeMasslessJointsFixed` succeeds then, among the joints below the root, every joint that
is not fixed has a child link with an inertial and every fixed joint has a child link without
one. The joints are the same but for those listed, which are made fixed: these are exactly the joints
that were not fixed and that carry no mass through fixed joints. The links are the same but for their
inertials: each link that is not fixed to another gets the mass of all links fixed to it, and the total
mass is unchanged. -/
theorem C51_massless (t : Tree) (hc : Consistent' t) (ho : OneInertial t) (n : ℕ) (t' : Tree)
    (names : List String) (h : makeMasslessJointsFixed n t = some (.ok (), t', names)) :
    (∀ j ∈ t'.joints, Reach t j.child → ∀ l ∈ t'.links, l.name = j.child →
      (j.type = some .fixed ↔ l.inertials = [])) ∧
    t'.joints = t.joints.map (markFixed names) ∧ names.Nodup ∧
    (∀ x, x ∈ names ↔ ∃ j ∈ t.joints, j.name = x ∧ j.type ≠ some .fixed ∧ Reach t j.child ∧
      ¬ CarriesMass t j.child) ∧
    t'.links.map bare = t.links.map bare ∧ t'.root = t.root ∧ totalMass t' = totalMass t ∧
    MassMoved t t' := by
  obtain ⟨L, hL, n0, hn0⟩ := traverse_fins t hc
  have hrun : runFins masslessVisitor L (t, []) = (.ok (), t', names) := by
    unfold makeMasslessJointsFixed traverseJoints at h
    have h1 := hn0 (max n n0) (le_max_right _ _) _ masslessVisitor (fun _ _ => rfl) (t, [])
    unfold traverseJoints at h1
    rw [walk_mono masslessVisitor t (le_max_left n n0) _ _ _ h] at h1
    exact (Option.some.inj h1).symm
  have h0 := massInv_start hc.links_nodup ho
  have hI := inv_loop hc L hL [] L rfl t [] h0 hrun
  refine ⟨?_, hI.joints, hI.nodup, ?_, hI.bare, hI.root, hI.mass, weight_moved hL.mem hI.weight⟩
  · intro j' hj' hr l hl e
    rw [hI.joints, List.mem_map] at hj'
    obtain ⟨j, hj, rfl⟩ := hj'
    have hchild : (markFixed names j).child = j.child := by unfold markFixed; split_ifs <;> rfl
    rw [hchild] at hr e
    have hjL : j ∈ L := (hL.mem j).2 ⟨hj, hr⟩
    by_cases hjn : j.name ∈ names
    · have : (markFixed names j).type = some .fixed := by simp [markFixed, hjn]
      simp only [this, true_iff]
      exact hI.fixed j hjL (Or.inr hjn) l hl e
    · have : markFixed names j = j := by simp [markFixed, hjn]
      rw [this]
      constructor
      · intro hf
        exact hI.fixed j hjL (Or.inl hf) l hl e
      · intro hl'
        by_contra hf
        exact hI.mobile j hjL hf hjn l hl e hl'
  · have key : ∀ j ∈ L, j.type ≠ some .fixed → (j.name ∈ names ↔ ¬ CarriesMass t j.child) := by
      intro j hjL hjf
      obtain ⟨hj, hr⟩ := (hL.mem j).1 hjL
      obtain ⟨l, hl, e⟩ := (mem_names_of_bare hI.bare j.child).2 (hc.children j hj)
      have hw := hI.weight.present l hl
      have hnf : ∀ k ∈ L, k.type = some .fixed → k.child ≠ l.name := by
        intro k hk hkf e'
        have := List.inj_on_of_nodup_map hc.one_parent ((hL.mem k).1 hk).1 hj (e'.trans e)
        exact hjf (this ▸ hkf)
      have hcm : CarriesMass t j.child ↔ l.inertials ≠ [] := by
        rw [hw, e]
        constructor
        · rintro ⟨l0, hl0, h1, h2⟩
          exact ⟨by rw [← e]; exact hnf, l0, hl0, h1,
            rigidly_reach h2 hr fun j hj hr => (hL.mem j).2 ⟨hj, hr⟩⟩
        · rintro ⟨-, l0, hl0, h1, h2⟩
          exact ⟨l0, hl0, h1, rigidly_mono (fun k hk => ((hL.mem k).1 hk).1) h2⟩
      rw [hcm, not_not]
      constructor
      · exact fun hn => hI.fixed j hjL (.inr hn) l hl e
      · intro h
        by_contra hn
        exact hI.mobile j hjL hjf hn l hl e h
    intro x
    constructor
    · intro hx
      obtain ⟨j, hjL, e, hjf⟩ := hI.listed x hx
      obtain ⟨hj, hr⟩ := (hL.mem j).1 hjL
      exact ⟨j, hj, e, hjf, hr, (key j hjL hjf).1 (e ▸ hx)⟩
    · rintro ⟨j, hj, rfl, hjf, hr, hm⟩
      exact (key j ((hL.mem j).2 ⟨hj, hr⟩) hjf).2 hm

theorem readable_step {t : Tree} (hc : Consistent' t) {F : List UJoint} {u : Tree}
    {names : List String} (hI : MassInv t F u names) (hru : Readable u) (hrt : Readable t) {j : UJoint}
    (hj : j ∈ t.joints) (hjF : j ∉ F) (hF : ∀ k ∈ F, k ∈ t.joints) :
    ∃ u' names', masslessVisitor.finish j (u, names) = (.ok (), u', names') ∧ Readable u' := by
  have hjn : j.name ∉ names := by
    intro hm
    obtain ⟨k, hk, e, -⟩ := hI.listed _ hm
    exact hjF (by rwa [List.inj_on_of_nodup_map hc.joints_nodup (hF k hk) hj e] at hk)
  have hfind : u.findJoint j.name = some j := by
    rw [find_markFixed hc.joints_nodup hI.joints hj]
    simp [markFixed, hjn]
  have hchild := (mem_names_of_bare hI.bare j.child).2 (hc.children j hj)
  have hparent := (mem_names_of_bare hI.bare j.parent).2 (hc.parents j hj)
  simp only [masslessVisitor, hfind]
  cases hty : j.type with
  | none => exact absurd hty (hrt.type j hj)
  | some ty =>
    by_cases hfx : ty = .fixed
    · subst hfx
      obtain ⟨u', h1, h2⟩ := squashJoint_readable hru hI.one (hrt.origin j hj) hchild hparent
      exact ⟨u', names, by simp only [h1], h2⟩
    · have hfl : ∃ c, u.findLink j.child = some c := by
        cases hf : u.findLink j.child with
        | some c => exact ⟨c, rfl⟩
        | none =>
          obtain ⟨l, hl, e⟩ := hchild
          have := List.find?_eq_none.1 hf l hl
          simp [e] at this
      obtain ⟨c, hfl⟩ := hfl
      have hmf : (u.makeJointFixed j.name).2 =
          u.editJoint j.name fun j => { j with type := some .fixed, axis := none } := by
        simp [Tree.makeJointFixed, hfind]
      have hread : Readable (u.makeJointFixed j.name).2 := by
        rw [hmf]
        refine ⟨?_, ?_, hru.inertial, hru.mass⟩
        · intro k hk
          simp only [Tree.editJoint, List.mem_map] at hk
          obtain ⟨i, hi, rfl⟩ := hk
          split_ifs
          · simp
          · exact hru.type i hi
        · intro k hk
          simp only [Tree.editJoint, List.mem_map] at hk
          obtain ⟨i, hi, rfl⟩ := hk
          split_ifs
          · exact hru.origin i hi
          · exact hru.origin i hi
      cases ty with
      | fixed => exact absurd rfl hfx
      | _ =>
        simp only [hfl]
        cases hci : c.inertials with
        | nil => exact ⟨_, _, rfl, hread⟩
        | cons ci rest => exact ⟨_, _, rfl, hru⟩

theorem readable_loop {t : Tree} (hc : Consistent' t) (hrt : Readable t) (L : List UJoint)
    (hL : PostOrder t L) (a b : List UJoint) (e : L = a ++ b) (u : Tree) (names : List String)
    (hI : MassInv t a u names) (hru : Readable u) :
    ∃ u' names', runFins masslessVisitor b (u, names) = (.ok (), u', names') ∧ Readable u' := by
  induction b generalizing a u names with
  | nil => exact ⟨u, names, rfl, hru⟩
  | cons j b ih =>
    obtain ⟨hj, hr⟩ := (hL.mem j).1 (by rw [e]; simp)
    have hnd := hL.nodup
    rw [e, List.nodup_append] at hnd
    have hjF : j ∉ a := fun h' => hnd.2.2 _ h' _ (by simp) rfl
    have hF : ∀ k ∈ a, k ∈ t.joints := fun k hk => ((hL.mem k).1 (by rw [e]; simp [hk])).1
    obtain ⟨u1, n1, h1, h2⟩ := readable_step hc hI hru hrt hj hjF hF
    have := inv_step hc hI hj hr hjF hF
      (fun k hk e' => hL.order a j b e k (hF k hk) e' hk) h1
    obtain ⟨u', n', h3, h4⟩ := ih (a ++ [j]) (by rw [e]; simp) u1 n1 this h2
    exact ⟨u', n', by rw [runFins, h1]; exact h3, h4⟩

/-- `makeMasslessJointsFixed` succeeds on every tree whose elements can be read, and the result can
still be read. -/
theorem C51_massless_completes (t : Tree) (hc : Consistent' t) (ho : OneInertial t)
    (hr : Readable t) :
    ∃ n0 t' names, Readable t' ∧
      ∀ n ≥ n0, makeMasslessJointsFixed n t = some (.ok (), t', names) := by
  obtain ⟨L, hL, n0, hn0⟩ := traverse_fins t hc
  obtain ⟨u', n', h, hru⟩ := readable_loop hc hr L hL [] L rfl t [] (massInv_start hc.links_nodup ho) hr
  refine ⟨n0, u', n', hru, fun n hn => ?_⟩
  rw [makeMasslessJointsFixed, hn0 n hn _ masslessVisitor (fun _ _ => rfl) (t, []), h]

/-! ### Fixed joints -/

theorem squashFixed_loop {t : Tree} (hc : Consistent' t) (L : List UJoint) (hL : PostOrder t L)
    (a b : List UJoint) (e : L = a ++ b) (u u' : Tree) (hj : u.joints = t.joints)
    (hr : u.root = t.root) (hb : u.links.map bare = t.links.map bare)
    (hm : totalMass u = totalMass t) (ho : OneInertial u)
    (hI : Weight t a u) (h : runFins squashFixedVisitor b u = (.ok (), u')) :
    u'.joints = t.joints ∧ u'.root = t.root ∧ u'.links.map bare = t.links.map bare ∧
      totalMass u' = totalMass t ∧ Weight t L u' := by
  induction b generalizing a u with
  | nil =>
    simp only [runFins, Prod.mk.injEq, true_and] at h
    subst h
    rw [List.append_nil] at e
    exact ⟨hj, hr, hb, hm, e ▸ hI⟩
  | cons j b ih =>
    obtain ⟨hjt, hrj⟩ := (hL.mem j).1 (by rw [e]; simp)
    have hF : ∀ k ∈ a, k ∈ t.joints := fun k hk => ((hL.mem k).1 (by rw [e]; simp [hk])).1
    have hpar : ∀ k ∈ a, k.child ≠ j.parent := fun k hk e' => hL.order a j b e k (hF k hk) e' hk
    have hnd := hL.nodup
    rw [e, List.nodup_append] at hnd
    have hjF : j ∉ a := fun h' => hnd.2.2 _ h' _ (by simp) rfl
    have hcne : ∀ k ∈ a, k.child ≠ j.child := by
      intro k hk e'
      exact hjF (by rwa [List.inj_on_of_nodup_map hc.one_parent (hF k hk) hjt e'] at hk)
    have hfind : u.findJoint j.name = some j := by
      have := find_name hc.joints_nodup hjt
      rw [Tree.findJoint, hj]
      exact this
    have hndl : (u.links.map ULink.name).Nodup := by rw [names_of_bare hb]; exact hc.links_nodup
    have hne : j.parent ≠ j.child := fun e' => no_cycle hc hrj (.single ⟨j, hjt, rfl, e'⟩)
    rw [runFins] at h
    simp only [squashFixedVisitor, hfind] at h
    cases hty : j.type with
    | none => simp [hty] at h
    | some ty =>
      by_cases hfx : ty = .fixed
      · subst hfx
        simp only [hty] at h
        rcases hs : u.squashJoint j with ⟨_ | _ | _, u1⟩
        · rw [hs] at h
          have hS := squashJoint_ok hs hndl ho hne
          refine ih (a ++ [j]) (by rw [e]; simp) u1 (hS.joints.trans hj) (hS.root.trans hr)
            (hS.bare.trans hb) (hS.mass.trans hm) hS.one ?_ h
          exact weight_squash hc hF hjt hrj hb hty hpar hcne hne hS hI
        · rw [hs] at h; simp at h
        · rw [hs] at h; simp at h
      · have h' : runFins squashFixedVisitor b u = (.ok (), u') := by
          cases ty with
          | fixed => exact absurd rfl hfx
          | _ => simp only [hty] at h; exact h
        refine ih (a ++ [j]) (by rw [e]; simp) u hj hr hb hm ho (weight_mobile ?_ hI) h'
        rw [hty]
        simpa using hfx

/-- If `squashFixedJointsMass` succeeds then no fixed joint below the root has a child link with
an inertial. The joints are unchanged, the links too but for their inertials: each link that is not
fixed to another gets the mass of all links fixed to it, has an inertial exactly if one of them had, and
the total mass is unchanged. -/
theorem C51_squashFixed (t : Tree) (hc : Consistent' t) (ho : OneInertial t) (n : ℕ) (t' : Tree)
    (h : squashFixedJointsMass n t = some (.ok (), t')) :
    t'.joints = t.joints ∧ t'.root = t.root ∧ t'.links.map bare = t.links.map bare ∧
    totalMass t' = totalMass t ∧ MassMoved t t' := by
  obtain ⟨L, hL, n0, hn0⟩ := traverse_fins t hc
  have hrun : runFins squashFixedVisitor L t = (.ok (), t') := by
    unfold squashFixedJointsMass traverseJoints at h
    have h1 := hn0 (max n n0) (le_max_right _ _) _ squashFixedVisitor (fun _ _ => rfl) t
    unfold traverseJoints at h1
    rw [walk_mono squashFixedVisitor t (le_max_left n n0) _ _ _ h] at h1
    exact (Option.some.inj h1).symm
  obtain ⟨h1, h2, h3, h4, h5⟩ := squashFixed_loop hc L hL [] L rfl t t' rfl rfl rfl rfl ho
    (weight_start hc.links_nodup) hrun
  exact ⟨h1, h2, h3, h4, weight_moved hL.mem h5⟩

/-! ### Continuous joints -/

theorem continuous_decides : Decides continuousVisitor fun _ => true := by
  intro j s b s' h
  simp only [continuousVisitor] at h
  cases hf : s.1.findJoint j.name with
  | none => simp [hf] at h
  | some k =>
    rcases hk : k.type with _ | ty
    · simp [hf, hk] at h
    · cases ty <;> simp [hf, hk] at h <;> exact h.1

theorem continuous_loop {t : Tree} (hc : Consistent' t) (hty : ∀ j ∈ t.joints, j.type ≠ none)
    (tr : List Event) (hmem : ∀ j, Event.disc j ∈ tr → j ∈ t.joints) (hnd : (discs tr).Nodup) (u : Tree)
    (names : List String) (hl : u.links = t.links) (hr : u.root = t.root)
    (hj : u.joints = t.joints.map (markFixed names))
    (hn : ∀ j ∈ discs tr, j.name ∉ names) :
    ∃ u', runCalls continuousVisitor tr (u, names) = (.ok (), u',
        names ++ ((discs tr).filter fun j => j.type = some .continuous).map UJoint.name) ∧
      u'.links = t.links ∧ u'.root = t.root ∧
      u'.joints = t.joints.map (markFixed (names ++
        ((discs tr).filter fun j => j.type = some .continuous).map UJoint.name)) := by
  induction tr generalizing u names with
  | nil => exact ⟨u, by simp [runCalls, discs], hl, hr, by simpa [discs] using hj⟩
  | cons e tr ih =>
    cases e with
    | fin j =>
      rw [runCalls, discs_fin]
      exact ih (fun k hk => hmem k (by simp [hk])) hnd u names hl hr hj hn
    | disc j =>
      have hjt := hmem j (by simp)
      rw [discs_disc] at hnd hn ⊢
      rw [List.nodup_cons] at hnd
      have hjn := hn j (by simp)
      have hfind : u.findJoint j.name = some j := by
        rw [find_markFixed hc.joints_nodup hj hjt]
        simp [markFixed, hjn]
      rw [runCalls]
      simp only [continuousVisitor, hfind]
      cases htj : j.type with
      | none => exact absurd htj (hty j hjt)
      | some ty =>
        by_cases hcont : ty = .continuous
        · subst hcont
          simp only [List.filter_cons, htj]
          have hmf : (u.makeJointFixed j.name).2 =
              u.editJoint j.name fun j => { j with type := some .fixed, axis := none } := by
            simp [Tree.makeJointFixed, hfind]
          have hj' : (u.makeJointFixed j.name).2.joints =
              t.joints.map (markFixed (names ++ [j.name])) := by
            rw [hmf]
            simp only [Tree.editJoint, hj, List.map_map]
            apply List.map_congr_left
            intro k hk
            simp only [Function.comp_apply, markFixed_name]
            by_cases hkj : k.name = j.name
            · rw [List.inj_on_of_nodup_map hc.joints_nodup hk hjt hkj]
              simp [markFixed, hjn]
            · rw [if_neg hkj]
              simp [markFixed, hkj]
          have hl' : (u.makeJointFixed j.name).2.links = t.links := by rw [hmf]; exact hl
          have hr' : (u.makeJointFixed j.name).2.root = t.root := by rw [hmf]; exact hr
          obtain ⟨u', h1, h2, h3, h4⟩ := ih (fun k hk => hmem k (by simp [hk])) hnd.2 _
            (names ++ [j.name]) hl' hr' hj' (by
              intro k hk hkn
              rcases List.mem_append.1 hkn with hkn | hkn
              · exact hn k (by simp [hk]) hkn
              · rw [List.mem_singleton] at hkn
                have hkt : k ∈ t.joints := hmem k (by
                  rw [discs_mem] at hk
                  simp [hk])
                have := List.inj_on_of_nodup_map hc.joints_nodup hkt hjt hkn
                exact hnd.1 (this ▸ hk))
          refine ⟨u', ?_, h2, h3, ?_⟩
          · simp only [continuousVisitor] at h1
            simpa using h1
          · simpa using h4
        · have hf : (List.filter (fun j : UJoint => decide (j.type = some .continuous)) (j :: discs tr)) =
              (discs tr).filter fun j => j.type = some .continuous := by
            rw [List.filter_cons, if_neg (by simp [htj, hcont])]
          obtain ⟨u', h1, h2⟩ := ih (fun k hk => hmem k (by simp [hk])) hnd.2 u names hl hr hj
            (fun k hk => hn k (by simp [hk]))
          rw [hf]
          refine ⟨u', ?_, h2⟩
          cases ty with
          | continuous => exact absurd rfl hcont
          | _ => exact h1

/-- `makeContinuousJointsFixed` makes fixed exactly the continuous joints that are below the
root, returns their names without repetition and changes nothing else. -/
theorem C51_continuous (t : Tree) (hc : Consistent' t) (hty : ∀ j ∈ t.joints, j.type ≠ none) :
    ∃ n0 t' names, (∀ n ≥ n0, makeContinuousJointsFixed n t = some (.ok (), t', names)) ∧
      names.Nodup ∧ (∀ x, x ∈ names ↔ ∃ j ∈ t.joints, j.name = x ∧ j.type = some .continuous ∧
        Reach t j.child) ∧
      t'.joints = t.joints.map (markFixed names) ∧ t'.links = t.links ∧ t'.root = t.root := by
  obtain ⟨tr, hC, n0, hn0⟩ := C47_traverse t hc fun _ => true
  have hmem : ∀ j, Event.disc j ∈ tr → j ∈ t.joints := fun j hj => ((hC.mem_disc j).1 hj).1
  have hnd := discs_nodup hC.nodup
  have h0 : t.joints = t.joints.map (markFixed []) := by
    have : markFixed [] = id := by funext j; simp [markFixed]
    rw [this, List.map_id]
  obtain ⟨u', h1, h2, h3, h4⟩ := continuous_loop hc hty tr hmem hnd t [] rfl rfl h0 (by simp)
  rw [List.nil_append] at h1 h4
  refine ⟨n0, u', _, fun n hn => ?_, ?_, ?_, h4, h2, h3⟩
  · rw [makeContinuousJointsFixed, hn0 n hn _ _ continuous_decides, h1]
  · refine List.Nodup.map_on (fun x hx y hy e => ?_) (hnd.filter _)
    have hx' := hmem x ((discs_mem x tr).1 (List.mem_of_mem_filter hx))
    have hy' := hmem y ((discs_mem y tr).1 (List.mem_of_mem_filter hy))
    exact List.inj_on_of_nodup_map hc.joints_nodup hx' hy' e
  · intro x
    rw [List.mem_map]
    constructor
    · rintro ⟨j, hj, rfl⟩
      rw [List.mem_filter, discs_mem] at hj
      have hjt := hmem j hj.1
      exact ⟨j, hjt, rfl, by simpa using hj.2, (C47_all_visited t hc _ hC j hjt).1.1 hj.1⟩
    · rintro ⟨j, hj, rfl, hjc, hjr⟩
      refine ⟨j, ?_, rfl⟩
      rw [List.mem_filter, discs_mem]
      exact ⟨(C47_all_visited t hc _ hC j hj).1.2 hjr, by simpa using hjc⟩

/-- A chain of two joints: a mobile joint to a massless link, then a fixed joint to a link with a
mass. Not in /repo: specification. -/
def massTree : Tree :=
  ⟨[⟨"r", [], [], []⟩, ⟨"a", [], [], []⟩, ⟨"b", [⟨none, ⟨2, 1, 0, 0, 1, 0, 1⟩⟩], [], []⟩],
   [⟨"B", some .fixed, "a", "b", none, none, none⟩,
    ⟨"A", some .continuous, "r", "a", none, none, none⟩], "r"⟩

/-- The hypotheses hold. -/
example : Consistent' massTree ∧ OneInertial massTree ∧ Readable massTree := by
  refine ⟨by constructor <;> simp [massTree], by simp [OneInertial, massTree], ?_⟩
  constructor <;> simp [massTree, UPose.fromPtree]

end AlMath
