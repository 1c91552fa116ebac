import Verif.Model.Traverser
import Verif.Props.C51
import Verif.Props.C57
import Verif.Props.C59

/-!
C65: building a rigid body system from a robot description.
-/

namespace AlMath

open Urdf Builder
open scoped Matrix

namespace Spec

/-- The frame of a pose. Not in /repo: specification. -/
noncomputable def framePose (p : UPose) : Pose := ⟨rpyRot p.rpy, p.xyz⟩

/-- The mass of a link with an inertial: its mass, its center of mass and its inertia. The rotation
of the inertia is the one the code does; see C50 for the cases where it is the right one. Not in
/repo: specification. -/
def HasMass (l : ULink) (m : BodyMass) : Prop :=
  ∃ i rest p, l.inertials = i :: rest ∧ UPose.fromPtree i.origin = .ok p ∧ m.mass = i.data.mass ∧
    m.centerOfMass = p.xyz ∧
    m.rotationalInertia = (rpyRot p.rpy)ᵀ * toEigenMatrix3 i.data * rpyRot p.rpy

/-- The kind of motion of a joint that is not fixed, when it is supported. Not in /repo:
specification. -/
def Motion (j : UJoint) (ty : JointType) : Prop :=
  (j.type = some .floating ∧ ty = .freeFlyer) ∨
  ((j.type = some .revolute ∨ j.type = some .continuous) ∧
    (((j.axis = none ∨ j.axis = some ![1, 0, 0]) ∧ ty = .rx) ∨
      (j.axis = some ![0, 1, 0] ∧ ty = .ry) ∨ (j.axis = some ![0, 0, 1] ∧ ty = .rz)))

/-- The joint can be given to a builder. Not in /repo: specification. -/
def Supported (j : UJoint) : Prop := j.type = some .fixed ∨ ∃ ty, Motion j ty

/-- The call for a joint: a static frame for a fixed joint, a body otherwise. Not in /repo:
specification. -/
def JointCall (t : Tree) (j : UJoint) (c : Call) : Prop :=
  ∃ p, UPose.fromPtree j.origin = .ok p ∧
    ((j.type = some .fixed ∧ c = .frame ⟨j.parent, j.child, j.name, framePose p⟩) ∨
      (j.type ≠ some .fixed ∧ ∃ l ∈ t.links, l.name = j.child ∧ ∃ ty m, Motion j ty ∧ HasMass l m ∧
        c = .link ⟨j.parent, j.child, j.name, framePose p, ty, m⟩))

/-- The call for the root link: a free body if it has a mass, none otherwise. Not in /repo:
specification. -/
def RootCalls (cfg : Config) (t : Tree) (cs : List Call) : Prop :=
  ∃ l ∈ t.links, l.name = t.root ∧
    ((l.inertials = [] ∧ cs = []) ∨
      ∃ m, HasMass l m ∧ cs = [.link ⟨"", t.root, cfg.jointName t.root, ⟨1, 0⟩, .freeFlyer, m⟩])

/-- The joints below the root, once each, parents before children. Not in /repo: specification. -/
structure PreOrder (t : Tree) (js : List UJoint) : Prop where
  mem : ∀ j, j ∈ js ↔ j ∈ t.joints ∧ Reach t j.child
  nodup : js.Nodup
  parent_first : ∀ j ∈ js, ∀ k ∈ js, k.parent = j.child → [j, k].Sublist js
  siblings : ∀ j k, j ∈ js → [j, k].Sublist (t.childJoints j.parent) → [j, k].Sublist js

/-- Giving calls to a builder in turn, up to the first exception; static frames are dropped when the
builder wants none. Not in /repo: specification. -/
def giveAll {σ T : Type} (b : Interface σ T) : σ → List (Call T) → Res Unit × σ
  | s, [] => (.ok (), s)
  | s, c :: l =>
    if c.isLink = false ∧ (b.config s).noStaticFrame = true then giveAll b s l
    else
      match perform b s c with
      | (.ok _, s') => giveAll b s' l
      | (.throws, s') => (.throws, s')
      | (.ub, s') => (.ub, s')

/-- What the edition of the tree does: it removes the root joint and link if asked to, then makes
some joints fixed, among them the continuous ones if asked to, so that the fixed joints are exactly
those to a massless link. The masses move, but nothing else of the links changes. In detail, in `mid`
exactly the continuous joints are made fixed if asked to; then exactly the joints that carry no mass are,
and the masses move along the fixed joints of `mid`. Not in /repo: specification. -/
structure Prepared (remove fix : Bool) (t t' : Tree) : Prop where
  root : if remove then ∃ j ∈ t.joints, j.parent = t.root ∧ j.child = t'.root else t'.root = t.root
  links : t'.links.map bare =
    (t.links.filter fun l => !(remove && decide (l.name = t.root))).map bare
  joints : ∃ names : List String, t'.joints =
    (t.joints.filter fun j => !(remove && decide (j.parent = t.root))).map (markFixed names)
  continuous : fix = true → ∀ j ∈ t'.joints, Reach t' j.child → j.type ≠ some .continuous
  massless : ∀ j ∈ t'.joints, Reach t' j.child → ∀ l ∈ t'.links, l.name = j.child →
    (j.type = some .fixed ↔ l.inertials = [])
  steps : ∃ (mid : Tree) (cont names : List String), mid.root = t'.root ∧
    mid.links = (t.links.filter fun l => !(remove && decide (l.name = t.root))) ∧
    mid.joints = (t.joints.filter fun j => !(remove && decide (j.parent = t.root))).map
      (markFixed cont) ∧
    (∀ x, x ∈ cont ↔ fix = true ∧ ∃ j ∈ t.joints, j.name = x ∧ j.type = some .continuous ∧
      Reach t' j.child ∧ (remove = true → j.parent ≠ t.root)) ∧
    t'.joints = mid.joints.map (markFixed names) ∧
    (∀ x, x ∈ names ↔ ∃ j ∈ mid.joints, j.name = x ∧ j.type ≠ some .fixed ∧ Reach t' j.child ∧
      ¬ CarriesMass mid j.child) ∧
    MassMoved mid t'

/-- The joint is given to builders with this configuration. Not in /repo: specification. -/
def Reported (cfg : Config) (j : UJoint) : Prop :=
  cfg.noStaticFrame = true → j.type ≠ some .fixed

/-- What a tree must satisfy for the names checker to accept it: the galilean frame has the empty
name, no joint has the name of the root joint, and no moving joint is carried by a fixed one. Not in
/repo: specification. -/
structure BuildOk (cfg : Config) (t : Tree) : Prop where
  galilean : cfg.galileanFrame = ""
  joints : ∀ j ∈ t.joints, Reach t j.child → Reported cfg j → j.name ≠ cfg.jointName t.root
  bodies : ∀ j ∈ t.joints, Reach t j.child → ∀ k ∈ t.joints, k.parent = j.child →
    k.type ≠ some .fixed → j.type ≠ some .fixed

/-- A builder that never fails and never changes its configuration. Not in /repo: specification. -/
structure Accepting {σ : Type} (b : Interface σ) (cfg : Config) : Prop where
  config : ∀ s, b.config s = cfg
  ok : ∀ s c, (perform b s c).1 = .ok ()

end Spec

open Spec

/-! ### The calls of the traversal -/

theorem toPose_eq (p : UPose) : toPose p = framePose p := by
  simp [toPose, framePose, toEigenTransform, quatFromRpy_eq]

theorem bodyMass_spec {l : ULink} {i : UInertial} {rest : List UInertial} (hl : l.inertials = i :: rest)
    {p : UPose} (hp : UPose.fromPtree i.origin = .ok p) :
    ∃ m, bodyMass i = .ok m ∧ HasMass l m := by
  refine ⟨_, by rw [bodyMass, hp]; rfl, i, rest, p, hl, hp, rfl, rfl, ?_⟩
  simp [urdfInertialToEigen, toEigenTransform, quatFromRpy_eq]

theorem movingType_spec {j : UJoint} {ty : JointType} (h : Motion j ty) : movingType j = .ok ty := by
  rcases h with ⟨h1, rfl⟩ | ⟨h1, h2⟩
  · simp [movingType, h1]
  · have key : turningType j.axis = .ok ty := by
      unfold turningType
      rcases h2 with ⟨h | h, rfl⟩ | ⟨h, rfl⟩ | ⟨h, rfl⟩ <;> simp [h]
    rcases h1 with h1 | h1 <;> simp [movingType, h1, key]

theorem movingType_ok {j : UJoint} {ty : JointType} (h : movingType j = .ok ty) : Motion j ty := by
  have key : turningType j.axis = .ok ty →
      (((j.axis = none ∨ j.axis = some ![1, 0, 0]) ∧ ty = .rx) ∨
      (j.axis = some ![0, 1, 0] ∧ ty = .ry) ∨ (j.axis = some ![0, 0, 1] ∧ ty = .rz)) := by
    unfold turningType
    cases hj : j.axis with
    | none => simp [eq_comm]
    | some a =>
      simp only [Option.getD_some]
      clear h
      split_ifs with h1 h2 h3 <;> simp_all [eq_comm]
  unfold movingType at h
  cases hty : j.type with
  | none => simp [hty] at h
  | some x =>
    rw [hty] at h
    cases x with
    | revolute => exact .inr ⟨.inl hty, key h⟩
    | continuous => exact .inr ⟨.inr hty, key h⟩
    | floating => exact .inl ⟨hty, by simpa using h.symm⟩
    | fixed => simp at h
    | prismatic => simp at h
    | planar => simp at h

theorem motion_not_fixed {j : UJoint} {ty : JointType} (h : Motion j ty) : j.type ≠ some .fixed := by
  rcases h with ⟨h1, -⟩ | ⟨h1 | h1, -⟩ <;> simp [h1]

/-- One joint. -/
theorem buildVisitor_joint {t : Tree} (hc : Consistent' t) (hr : Readable t) {j : UJoint}
    (hj : j ∈ t.joints) (hs : Supported j)
    (hm : ∀ l ∈ t.links, l.name = j.child → (j.type = some .fixed ↔ l.inertials = [])) :
    ∃ c, JointCall t j c ∧ ∀ (σ : Type) (b : Interface σ) (s : σ),
      (buildVisitor b t).discover j s =
        ((giveAll b s [c]).1.map fun _ => true, (giveAll b s [c]).2) := by
  obtain ⟨p, hp⟩ := hr.origin j hj
  by_cases hf : j.type = some .fixed
  · refine ⟨.frame ⟨j.parent, j.child, j.name, framePose p⟩, ⟨p, hp, .inl ⟨hf, rfl⟩⟩, ?_⟩
    intro σ b s
    simp only [buildVisitor, hf, if_true, hp, toPose_eq, giveAll, Call.isLink, true_and,
      Interface.addFrame, perform]
    split_ifs with hn
    · rfl
    · rcases b.addStaticFrame s ⟨j.parent, j.child, j.name, framePose p⟩ with ⟨r, s'⟩
      cases r <;> rfl
  · rcases hs with hs | ⟨ty, hty⟩
    · exact absurd hs hf
    · obtain ⟨l, hl, hln, hfl⟩ := find_child hc (hc.children j hj)
      have hne : l.inertials ≠ [] := fun e => hf ((hm l hl hln).2 e)
      obtain ⟨i, rest, hi⟩ := List.exists_cons_of_ne_nil hne
      obtain ⟨q, hq⟩ := hr.inertial l hl i (by rw [hi]; simp)
      obtain ⟨m, hbm, hmm⟩ := bodyMass_spec hi hq
      refine ⟨.link ⟨j.parent, j.child, j.name, framePose p, ty, m⟩,
        ⟨p, hp, .inr ⟨hf, l, hl, hln, ty, m, hty, hmm, rfl⟩⟩, ?_⟩
      intro σ b s
      simp only [buildVisitor, hf, if_false, hp, toPose_eq, movingType_spec hty, hfl, discoverLink,
        hi, hbm, giveAll, Call.isLink, Bool.true_eq_false, false_and, perform, Interface.add]
      rcases b.addLink s ⟨j.parent, j.child, j.name, framePose p, ty, m⟩ with ⟨r, s'⟩
      cases r <;> rfl

theorem buildVisitor_decides {σ : Type} (b : Interface σ) (t : Tree) :
    Decides (buildVisitor b t) fun _ => true := by
  intro j s x s' h
  have key : ∀ (r : Res Unit) (s1 : σ), (r.map fun _ => true, s1) = (.ok x, s') → x = true := by
    intro r s1 h
    cases r <;> simp [Res.map] at h
    exact h.1
  have key' : ∀ (r : Res Bool) (s1 : σ), (r.map fun _ => true, s1) = (.ok x, s') → x = true := by
    intro r s1 h
    cases r <;> simp [Res.map] at h
    exact h.1
  simp only [buildVisitor] at h
  split_ifs at h
  · cases hp : UPose.fromPtree j.origin with
    | ok p => rw [hp] at h; exact key _ _ h
    | throws => rw [hp] at h; simp at h
    | ub => rw [hp] at h; simp at h
  · cases hm : movingType j with
    | throws => rw [hm] at h; simp at h
    | ub => rw [hm] at h; simp at h
    | ok ty =>
      rw [hm] at h
      cases hp : UPose.fromPtree j.origin with
      | throws => rw [hp] at h; simp at h
      | ub => rw [hp] at h; simp at h
      | ok p =>
        rw [hp] at h
        cases hl : t.findLink j.child with
        | none => rw [hl] at h; simp at h
        | some l => rw [hl] at h; exact key' _ _ h

theorem giveAll_append {σ : Type} (b : Interface σ) (s : σ) (a c : List Call) :
    giveAll b s (a ++ c) = match giveAll b s a with
      | (.ok _, s') => giveAll b s' c
      | (.throws, s') => (.throws, s')
      | (.ub, s') => (.ub, s') := by
  induction a generalizing s with
  | nil => rfl
  | cons x a ih =>
    simp only [List.cons_append, giveAll]
    split_ifs
    · exact ih s
    · rcases perform b s x with ⟨r, s'⟩
      cases r with
      | ok u => exact ih s'
      | throws => rfl
      | ub => rfl

/-- A list of calls made in turn. -/
theorem runCalls_build {t : Tree} (hc : Consistent' t) (hr : Readable t) (tr : List Event)
    (htr : ∀ j, Event.disc j ∈ tr → j ∈ t.joints ∧ Supported j ∧
      ∀ l ∈ t.links, l.name = j.child → (j.type = some .fixed ↔ l.inertials = [])) :
    ∃ cs, List.Forall₂ (JointCall t) (discs tr) cs ∧ ∀ (σ : Type) (b : Interface σ) (s : σ),
      runCalls (buildVisitor b t) tr s = giveAll b s cs := by
  induction tr with
  | nil => exact ⟨[], .nil, fun σ b s => rfl⟩
  | cons e tr ih =>
    obtain ⟨cs, h1, h2⟩ := ih fun j hj => htr j (by simp [hj])
    cases e with
    | disc j =>
      obtain ⟨hj, hs, hm⟩ := htr j (by simp)
      obtain ⟨c, hjc, hd⟩ := buildVisitor_joint hc hr hj hs hm
      refine ⟨c :: cs, by rw [discs_disc]; exact .cons hjc h1, fun σ b s => ?_⟩
      rw [runCalls, hd, show c :: cs = [c] ++ cs from rfl, giveAll_append]
      rcases giveAll b s [c] with ⟨r, s'⟩
      cases r with
      | ok u => exact h2 σ b s'
      | throws => rfl
      | ub => rfl
    | fin j =>
      refine ⟨cs, by rw [discs_fin]; exact h1, fun σ b s => ?_⟩
      rw [runCalls]
      exact h2 σ b s

theorem discs_sublist {a b : List Event} (h : a.Sublist b) : (discs a).Sublist (discs b) := by
  unfold discs
  exact h.filterMap _

theorem preOrder_of_calls {t : Tree} (hc : Consistent' t) {tr : List Event}
    (h : Calls t (fun _ => true) t.root tr) : PreOrder t (discs tr) := by
  have hmem : ∀ j, j ∈ discs tr ↔ j ∈ t.joints ∧ Reach t j.child := by
    intro j
    rw [discs_mem]
    constructor
    · intro hj
      have hjt := ((h.mem_disc j).1 hj).1
      exact ⟨hjt, (C47_all_visited t hc tr h j hjt).1.1 hj⟩
    · rintro ⟨hj, hr⟩
      exact (C47_all_visited t hc tr h j hj).1.2 hr
  refine ⟨hmem, discs_nodup h.nodup, ?_, ?_⟩
  · intro j hj k hk hjk
    have := (C47_parent_first t _ tr h j k ((h.mem_disc j).1 ((discs_mem _ _).1 hj)) rfl
      ((hmem k).1 hk).1 hjk).1
    exact discs_sublist this
  · intro j k hj hs
    have hv := (h.mem_disc j).1 ((discs_mem _ _).1 hj)
    have h2 := h.siblings j k hv hs
    obtain ⟨a, m, c, e, hm⟩ := h.bracket j hv
    have hnd := h.nodup
    rw [e] at h2 hnd ⊢
    have hfin : Event.fin j ∉ a ++ (.disc j :: m) := by
      intro hf
      rw [show a ++ (Event.disc j :: m ++ Event.fin j :: c) =
        (a ++ (.disc j :: m)) ++ (.fin j :: c) by simp, List.nodup_append] at hnd
      exact hnd.2.2 _ hf _ (by simp) rfl
    have hk : Event.disc k ∈ c := by
      rw [show a ++ (Event.disc j :: m ++ Event.fin j :: c) =
        (a ++ (.disc j :: m)) ++ (.fin j :: c) by simp] at h2
      have h3 : [Event.fin j, Event.disc k].Sublist (Event.fin j :: c) := by
        rw [List.sublist_append_iff] at h2
        obtain ⟨l1, l2, e2, s1, s2⟩ := h2
        cases l1 with
        | nil =>
          rw [List.nil_append] at e2
          rw [e2]; exact s2
        | cons x l1 =>
          simp only [List.cons_append, List.cons.injEq] at e2
          exact absurd (s1.subset (by rw [← e2.1]; simp)) hfin
      have h4 : [Event.disc k].Sublist c := by simpa using h3
      exact List.singleton_sublist.1 h4
    have : [Event.disc j, Event.disc k].Sublist (a ++ (Event.disc j :: m ++ Event.fin j :: c)) := by
      refine List.Sublist.trans ?_ (List.sublist_append_right _ _)
      rw [List.cons_append]
      refine List.Sublist.cons_cons _ ?_
      refine List.Sublist.trans ?_ (List.sublist_append_right _ _)
      exact (List.singleton_sublist.2 hk).cons _
    exact discs_sublist this

/-! ### The edition of the tree -/

theorem markFixed_parent (names : List String) (j : UJoint) : (markFixed names j).parent = j.parent := by
  unfold markFixed; split_ifs <;> rfl

theorem markFixed_child (names : List String) (j : UJoint) : (markFixed names j).child = j.child := by
  unfold markFixed; split_ifs <;> rfl

theorem markFixed_markFixed (n m : List String) (j : UJoint) :
    markFixed m (markFixed n j) = markFixed (n ++ m) j := by
  unfold markFixed
  by_cases h1 : j.name ∈ n <;> by_cases h2 : j.name ∈ m <;> simp [h1, h2]

theorem mark_up {t t' : Tree} {names : List String} (hj : t'.joints = t.joints.map (markFixed names))
    (a b : String) : Up t' a b ↔ Up t a b := by
  unfold Up
  rw [hj]
  constructor
  · rintro ⟨j, hj, e1, e2⟩
    obtain ⟨k, hk, rfl⟩ := List.mem_map.1 hj
    exact ⟨k, hk, by rw [← e1, markFixed_child], by rw [← e2, markFixed_parent]⟩
  · rintro ⟨j, hj, e1, e2⟩
    exact ⟨_, List.mem_map.2 ⟨j, hj, rfl⟩, by rw [markFixed_child, e1], by rw [markFixed_parent, e2]⟩

theorem mark_reach {t t' : Tree} {names : List String}
    (hj : t'.joints = t.joints.map (markFixed names)) (hr : t'.root = t.root) (l : String) :
    Reach t' l ↔ Reach t l := by
  unfold Reach
  rw [hr, show Up t' = Up t from by funext a b; exact propext (mark_up hj a b)]

theorem mark_consistent {t t' : Tree} {names : List String} (hc : Consistent' t)
    (hj : t'.joints = t.joints.map (markFixed names)) (hl : t'.links.map bare = t.links.map bare)
    (hr : t'.root = t.root) : Consistent' t' := by
  have hmem := mem_names_of_bare hl
  have hnames := names_of_bare hl
  refine ⟨by rw [hnames]; exact hc.links_nodup, ?_, ?_, ?_, ?_, ?_, ?_, ?_⟩
  · rw [hj, List.map_map, show UJoint.name ∘ markFixed names = UJoint.name from
      funext fun j => markFixed_name names j]
    exact hc.joints_nodup
  · intro j hj'
    rw [hj] at hj'
    obtain ⟨k, hk, rfl⟩ := List.mem_map.1 hj'
    rw [markFixed_parent, hmem]
    exact hc.parents k hk
  · intro j hj'
    rw [hj] at hj'
    obtain ⟨k, hk, rfl⟩ := List.mem_map.1 hj'
    rw [markFixed_child, hmem]
    exact hc.children k hk
  · rw [hj, List.map_map, show UJoint.child ∘ markFixed names = UJoint.child from
      funext fun j => markFixed_child names j]
    exact hc.one_parent
  · rw [hr, hmem]; exact hc.root_mem
  · intro j hj'
    rw [hj] at hj'
    obtain ⟨k, hk, rfl⟩ := List.mem_map.1 hj'
    rw [markFixed_child, hr]
    exact hc.root_not_child k hk
  · intro l hl' hne
    obtain ⟨l0, hl0, e⟩ := (hmem l.name).1 ⟨l, hl', rfl⟩
    obtain ⟨j, hj', e'⟩ := hc.others_child l0 hl0 (by rw [e, ← hr]; exact hne)
    exact ⟨markFixed names j, by rw [hj]; exact List.mem_map.2 ⟨j, hj', rfl⟩,
      by rw [markFixed_child, e', e]⟩

theorem sublist_eq_filter {α : Type} {l m : List α} (p : α → Bool) (h : l.Sublist m) (hm : m.Nodup)
    (hmem : ∀ x, x ∈ l ↔ x ∈ m ∧ p x = true) : l = m.filter p := by
  have h1 : l.filter p = l := List.filter_eq_self.2 fun x hx => ((hmem x).1 hx).2
  have h2 : l.Sublist (m.filter p) := by
    have := h.filter p
    rwa [h1] at this
  refine h2.eq_of_length_le ?_
  refine ((hm.filter p).subperm ?_).length_le
  intro x hx
  rw [List.mem_filter] at hx
  exact (hmem x).2 hx

/-- The tree that is given to the builder. -/
theorem prepare_spec (t : Tree) (hc : Consistent' t) (ho : OneInertial t) (hr : Readable t)
    (remove fix : Bool)
    (hrem : remove = true → ∃! j, j ∈ t.joints ∧ j.parent = t.root) :
    ∃ n0 t', Consistent' t' ∧ Readable t' ∧ Prepared remove fix t t' ∧
      ∀ n ≥ n0, prepare n remove fix t = some (.ok (), t') := by
  -- root
  obtain ⟨t1, e1, hc1, ho1, hr1, hroot1, hl1, hj1⟩ : ∃ t1,
      (if remove then t.rmRootJoint else (.ok (), t)) = (Res.ok (), t1) ∧ Consistent' t1 ∧
      OneInertial t1 ∧ Readable t1 ∧
      (if remove then ∃ j ∈ t.joints, j.parent = t.root ∧ j.child = t1.root else t1.root = t.root) ∧
      t1.links = (t.links.filter fun l => !(remove && decide (l.name = t.root))) ∧
      t1.joints = (t.joints.filter fun j => !(remove && decide (j.parent = t.root))) := by
    cases remove with
    | false => exact ⟨t, by simp, hc, ho, hr, by simp, by simp, by simp⟩
    | true =>
      have h := C49_root t hc
      rw [if_pos (hrem rfl)] at h
      obtain ⟨j, hj, hp, t1, e, h1, h2, h3, h4, h5, h6, -⟩ := h
      refine ⟨t1, by simpa using e, h6, ?_, ?_, ?_, ?_, ?_⟩
      · exact fun l hl => ho l (h3.subset hl)
      · exact ⟨fun k hk => hr.type k (h2.subset hk), fun k hk => hr.origin k (h2.subset hk),
          fun l hl => hr.inertial l (h3.subset hl), fun l hl => hr.mass l (h3.subset hl)⟩
      · simp only [if_true]; exact ⟨j, hj, hp, h1.symm⟩
      · refine sublist_eq_filter _ h3 (List.Nodup.of_map _ hc.links_nodup) fun x => ?_
        rw [h5]; simp
      · refine sublist_eq_filter _ h2 (List.Nodup.of_map _ hc.joints_nodup) fun x => ?_
        rw [h4]
        obtain ⟨j', ⟨-, -⟩, hu⟩ := hrem rfl
        refine and_congr_right fun hx => ?_
        simp only [Bool.true_and, Bool.not_eq_true', decide_eq_false_iff_not]
        refine not_congr ⟨fun e => by rw [e]; exact hp, fun e => ?_⟩
        rw [hu x ⟨hx, e⟩, ← hu j ⟨hj, hp⟩]
  -- continuous joints
  obtain ⟨n2, t2, names2, e2, hj2, hl2, hroot2, hcont⟩ : ∃ n2 t2 names2,
      (∀ n ≥ n2, (if fix then (makeContinuousJointsFixed n t1).map fun r => (r.1, r.2.1)
        else some (.ok (), t1)) = some (Res.ok (), t2)) ∧
      t2.joints = t1.joints.map (markFixed names2) ∧ t2.links = t1.links ∧ t2.root = t1.root ∧
      (∀ x, x ∈ names2 ↔ fix = true ∧ ∃ j ∈ t1.joints, j.name = x ∧ j.type = some .continuous ∧
        Reach t1 j.child) := by
    cases fix with
    | false =>
      refine ⟨0, t1, [], by simp, ?_, rfl, rfl, by simp⟩
      rw [show markFixed [] = id from by funext j; simp [markFixed], List.map_id]
    | true =>
      obtain ⟨n0, t2, names, h1, -, h3, h4, h5, h6⟩ := C51_continuous t1 hc1 hr1.type
      refine ⟨n0, t2, names, fun n hn => by simp [h1 n hn], h4, h5, h6, ?_⟩
      simpa using h3
  have hb2 : t2.links.map bare = t1.links.map bare := by rw [hl2]
  have hc2 := mark_consistent hc1 hj2 hb2 hroot2
  have ho2 : OneInertial t2 := by intro l hl; rw [hl2] at hl; exact ho1 l hl
  have hr2 : Readable t2 := by
    refine ⟨?_, ?_, ?_, ?_⟩
    · intro j hj
      rw [hj2] at hj
      obtain ⟨k, hk, rfl⟩ := List.mem_map.1 hj
      unfold markFixed
      split_ifs
      · simp
      · exact hr1.type k hk
    · intro j hj
      rw [hj2] at hj
      obtain ⟨k, hk, rfl⟩ := List.mem_map.1 hj
      have : (markFixed names2 k).origin = k.origin := by unfold markFixed; split_ifs <;> rfl
      rw [this]; exact hr1.origin k hk
    · rw [hl2]; exact hr1.inertial
    · rw [hl2]; exact hr1.mass
  -- massless links
  obtain ⟨n3, t', names3, hr3, e3⟩ := C51_massless_completes t2 hc2 ho2 hr2
  obtain ⟨g1, g2, -, g4, g5, g6, -, g7⟩ := C51_massless t2 hc2 ho2 n3 t' names3 (e3 n3 le_rfl)
  have hc3 := mark_consistent hc2 g2 g5 g6
  have hreach : ∀ l, Reach t' l ↔ Reach t1 l := fun l =>
    (mark_reach g2 g6 l).trans (mark_reach hj2 hroot2 l)
  have hjj : t'.joints = t1.joints.map (markFixed (names2 ++ names3)) := by
    rw [g2, hj2, List.map_map]
    congr 1
    funext j
    exact markFixed_markFixed _ _ _
  refine ⟨max n2 n3, t', hc3, hr3, ⟨?_, ?_, ⟨names2 ++ names3, ?_⟩, ?_, ?_, ?_⟩, ?_⟩
  · rw [g6, hroot2]; exact hroot1
  · rw [g5, hl2, hl1]
  · rw [hjj, hj1]
  · intro hf j hj hrj hty
    rw [hjj] at hj
    obtain ⟨k, hk, rfl⟩ := List.mem_map.1 hj
    rw [markFixed_child, hreach] at hrj
    unfold markFixed at hty
    split_ifs at hty with hn
    · simp at hty
    · exact hn (List.mem_append_left _ ((hcont _).2 ⟨hf, k, hk, rfl, hty, hrj⟩))
  · intro j hj hrj
    exact g1 j hj (by rwa [← mark_reach g2 g6])
  · refine ⟨t2, names2, names3, g6.symm, by rw [hl2, hl1], by rw [hj2, hj1], fun x => ?_, g2,
      fun x => ?_, g7⟩
    · rw [hcont]
      refine and_congr_right fun _ => ?_
      constructor
      · rintro ⟨j, hj, h1, h2, h3⟩
        rw [hj1] at hj
        rw [List.mem_filter] at hj
        refine ⟨j, hj.1, h1, h2, (hreach _).2 h3, fun hrm hp => ?_⟩
        simp [hrm, hp] at hj
      · rintro ⟨j, hj, h1, h2, h3, h4⟩
        refine ⟨j, ?_, h1, h2, (hreach _).1 h3⟩
        rw [hj1, List.mem_filter]
        refine ⟨hj, ?_⟩
        cases hrm : remove with
        | false => rfl
        | true => simpa using h4 hrm
    · rw [g4]
      constructor
      · rintro ⟨j, hj, h1, h2, h3, h4⟩
        exact ⟨j, hj, h1, h2, (mark_reach g2 g6 _).2 h3, h4⟩
      · rintro ⟨j, hj, h1, h2, h3, h4⟩
        exact ⟨j, hj, h1, h2, (mark_reach g2 g6 _).1 h3, h4⟩
  · intro n hn
    unfold prepare
    simp only [e1, e2 n (le_trans (le_max_left _ _) hn)]
    rw [e3 n (le_trans (le_max_right _ _) hn)]
    rfl

/-! ### The theorems -/

/-- The calls to the builder for a tree whose fixed joints are those to massless links. -/
theorem buildFromTree_spec (t : Tree) (hc : Consistent' t) (hr : Readable t)
    (hm : ∀ j ∈ t.joints, Reach t j.child → ∀ l ∈ t.links, l.name = j.child →
      (j.type = some .fixed ↔ l.inertials = []))
    (hs : ∀ j ∈ t.joints, Reach t j.child → Supported j) :
    ∃ js cs, PreOrder t js ∧ List.Forall₂ (JointCall t) js cs ∧
      ∃ n0, ∀ n ≥ n0, ∀ (σ : Type) (b : Interface σ) (s : σ), ∃ rs, RootCalls (b.config s) t rs ∧
        buildFromTree b n t s = some (giveAll b s (rs ++ cs)) := by
  obtain ⟨tr, hC, n0, hn0⟩ := C47_traverse t hc fun _ => true
  have hpre := preOrder_of_calls hc hC
  obtain ⟨cs, h1, h2⟩ := runCalls_build hc hr tr (by
    intro j hj
    obtain ⟨hjt, hjr⟩ := (hpre.mem j).1 ((discs_mem _ _).2 hj)
    exact ⟨hjt, hs j hjt hjr, hm j hjt hjr⟩)
  refine ⟨discs tr, cs, hpre, h1, n0, fun n hn σ b s => ?_⟩
  obtain ⟨l, hl, hln, hfl⟩ := find_child hc hc.root_mem
  have hcall : ∀ s, traverseJoints (buildVisitor b t) t n s = some (giveAll b s cs) := by
    intro s
    rw [hn0 n hn σ _ (buildVisitor_decides b t), h2]
  unfold buildFromTree
  rw [hfl]
  cases hi : l.inertials with
  | nil =>
    refine ⟨[], ⟨l, hl, hln, .inl ⟨hi, rfl⟩⟩, ?_⟩
    simp only [discoverLink, hi]
    exact hcall s
  | cons i rest =>
    obtain ⟨q, hq⟩ := hr.inertial l hl i (by rw [hi]; simp)
    obtain ⟨m, hbm, hmm⟩ := bodyMass_spec hi hq
    refine ⟨_, ⟨l, hl, hln, .inr ⟨m, hmm, rfl⟩⟩, ?_⟩
    rw [giveAll_append]
    simp only [discoverLink, hi, hbm, giveAll, Call.isLink, Bool.true_eq_false, false_and,
      if_false, perform, Interface.addUnnamed, Interface.add]
    rcases b.addLink s ⟨"", t.root, (b.config s).jointName t.root, ⟨1, 0⟩, .freeFlyer, m⟩ with ⟨r, s'⟩
    cases r with
    | ok u => exact hcall s'
    | throws => rfl
    | ub => rfl

/-- Building from a description that loads, can be read, and whose joints are supported: every
builder, whatever it does, is given the call of the root link followed by exactly one call per joint
below the root, parents before children and siblings in the order of the document, up to the first
call that fails. -/
theorem C65_build (doc : List Elem) (t : Tree) (hl : load doc = .ok t) (ho : OneInertial t)
    (hr : Readable t) (hs : ∀ j ∈ t.joints, Supported j) (remove fix : Bool)
    (hrem : remove = true → ∃! j, j ∈ t.joints ∧ j.parent = t.root) :
    ∃ t' js cs, Prepared remove fix t t' ∧ PreOrder t' js ∧ List.Forall₂ (JointCall t') js cs ∧
      ∃ n0, ∀ n ≥ n0, ∀ (σ : Type) (b : Interface σ) (s : σ), ∃ rs, RootCalls (b.config s) t' rs ∧
        buildFromUrdf b n doc remove fix s = some (giveAll b s (rs ++ cs)) := by
  have hc := (C45_consistent doc t hl).1
  obtain ⟨n1, t', hc', hr', hp, hn1⟩ := prepare_spec t hc ho hr remove fix hrem
  have hs' : ∀ j ∈ t'.joints, Reach t' j.child → Supported j := by
    intro j hj _
    obtain ⟨names, e⟩ := hp.joints
    rw [e] at hj
    obtain ⟨k, hk, rfl⟩ := List.mem_map.1 hj
    unfold markFixed
    split_ifs
    · exact .inl rfl
    · exact hs k (List.mem_filter.1 hk).1
  obtain ⟨js, cs, h1, h2, n2, hn2⟩ := buildFromTree_spec t' hc' hr' hp.massless hs'
  refine ⟨t', js, cs, hp, h1, h2, max n1 n2, fun n hn σ b s => ?_⟩
  obtain ⟨rs, h3, h4⟩ := hn2 n (le_trans (le_max_right _ _) hn) σ b s
  refine ⟨rs, h3, ?_⟩
  unfold buildFromUrdf
  simp only [hl, hn1 n (le_trans (le_max_left _ _) hn)]
  exact h4

/-! ### With the names checker -/

/-- The calls that reach a builder with this configuration. -/
def keptCalls (cfg : Config) (cs : List Call) : List Call :=
  cs.filter fun c => c.isLink || !cfg.noStaticFrame

theorem wellFormed_snoc {gal : String} {acc : List Call} {c : Call} (h : WellFormed gal acc)
    (hc : Allowed gal acc c) : WellFormed gal (acc ++ [c]) := by
  intro l1 d l2 hl
  rcases List.eq_nil_or_concat l2 with rfl | ⟨l2', e2, rfl⟩
  · have := List.append_inj' hl (by simp)
    have hd := this.2
    simp only [List.cons.injEq, and_true] at hd
    rw [← this.1, ← hd]
    exact hc
  · rw [List.concat_eq_append, ← List.cons_append, ← List.append_assoc] at hl
    have := List.append_inj' hl (by simp)
    exact h l1 d l2' this.1

theorem giveAll_checker {σ : Type} {b : Interface σ} {cfg : Config} (hb : Accepting b cfg)
    (cs : List Call) : ∀ (acc : List Call) (k : Known) (s : σ),
      Tracks cfg.galileanFrame acc k → WellFormed cfg.galileanFrame acc →
      ((∃ s', giveAll (NamesChecker.interface b) (k, s) cs = (.ok (), s')) ↔
        WellFormed cfg.galileanFrame (acc ++ keptCalls cfg cs)) := by
  induction cs with
  | nil => intro acc k s _ hw; simpa [giveAll, keptCalls] using hw
  | cons c cs ih =>
    intro acc k s ht hw
    have hcfg : (NamesChecker.interface b).config (k, s) = cfg := hb.config s
    rw [giveAll, hcfg]
    by_cases hd : c.isLink = false ∧ cfg.noStaticFrame = true
    · rw [if_pos hd]
      have : keptCalls cfg (c :: cs) = keptCalls cfg cs := by
        simp [keptCalls, hd.1, hd.2]
      rw [this]
      exact ih acc k s ht hw
    · rw [if_neg hd]
      have : keptCalls cfg (c :: cs) = c :: keptCalls cfg cs := by
        unfold keptCalls
        rw [List.filter_cons_of_pos]
        cases h1 : c.isLink <;> cases h2 : cfg.noStaticFrame <;> simp_all
      rw [this]
      rcases checker_step b ht s c with ⟨hal, k', e, hok, -⟩ | ⟨hal, e⟩
      · rw [e, hb.ok s c]
        have := ih (acc ++ [c]) k' (perform b s c).2 (hok (hb.ok s c)) (wellFormed_snoc hw hal)
        simpa [List.append_assoc] using this
      · rw [e]
        constructor
        · rintro ⟨s', h⟩; simp at h
        · intro h
          exact absurd (h acc c (keptCalls cfg cs) rfl) hal

theorem jointCall_names {t : Tree} {j : UJoint} {c : Call} (h : JointCall t j c) :
    c.frameName = j.child ∧ c.transformName = j.name ∧ c.parentName = j.parent ∧
      (c.isLink = true ↔ j.type ≠ some .fixed) := by
  obtain ⟨p, -, ⟨h, rfl⟩ | ⟨h, l, -, -, ty, m, -, -, rfl⟩⟩ := h
  · exact ⟨rfl, rfl, rfl, by simp [Call.isLink, h]⟩
  · exact ⟨rfl, rfl, rfl, by simp [Call.isLink, h]⟩

open Classical in
theorem forall₂_kept {t : Tree} {cfg : Config} {js : List UJoint} {cs : List Call}
    (h : List.Forall₂ (JointCall t) js cs) :
    List.Forall₂ (JointCall t) (js.filter fun j => decide (Reported cfg j)) (keptCalls cfg cs) := by
  induction h with
  | nil => exact .nil
  | @cons j c js cs hjc _ ih =>
    have hk : (c.isLink || !cfg.noStaticFrame) = decide (Reported cfg j) := by
      obtain ⟨-, -, -, h⟩ := jointCall_names hjc
      unfold Reported
      by_cases hf : j.type = some .fixed
      · have : c.isLink = false := by
          cases hcl : c.isLink
          · rfl
          · exact absurd hf (h.1 hcl)
        cases hn : cfg.noStaticFrame <;> simp [this, hf]
      · simp [h.2 hf, hf]
    unfold keptCalls at ih ⊢
    rw [List.filter_cons, List.filter_cons, hk]
    split_ifs
    · exact .cons hjc ih
    · exact ih

theorem forall₂_split {α β : Type} {R : α → β → Prop} {as : List α} {bs b1 b2 : List β} {b : β}
    (h : List.Forall₂ R as bs) (e : bs = b1 ++ b :: b2) :
    ∃ a1 a a2, as = a1 ++ a :: a2 ∧ List.Forall₂ R a1 b1 ∧ R a b ∧ List.Forall₂ R a2 b2 := by
  induction h generalizing b1 with
  | nil => simp at e
  | @cons x y as bs hxy hrest ih =>
    cases b1 with
    | nil =>
      simp only [List.nil_append, List.cons.injEq] at e
      obtain ⟨rfl, rfl⟩ := e
      exact ⟨[], x, as, rfl, .nil, hxy, hrest⟩
    | cons z b1 =>
      simp only [List.cons_append, List.cons.injEq] at e
      obtain ⟨rfl, e⟩ := e
      obtain ⟨a1, a, a2, e', h1, h2, h3⟩ := ih e
      exact ⟨x :: a1, a, a2, by rw [e']; rfl, .cons hxy h1, h2, h3⟩

theorem forall₂_mem {α β : Type} {R : α → β → Prop} {as : List α} {bs : List β}
    (h : List.Forall₂ R as bs) {b : β} (hb : b ∈ bs) : ∃ a ∈ as, R a b := by
  obtain ⟨b1, b2, e⟩ := List.append_of_mem hb
  obtain ⟨a1, a, a2, e', -, h2, -⟩ := forall₂_split h e
  exact ⟨a, by rw [e']; simp, h2⟩

theorem forall₂_mem' {α β : Type} {R : α → β → Prop} {as : List α} {bs : List β}
    (h : List.Forall₂ R as bs) {a : α} (ha : a ∈ as) : ∃ b ∈ bs, R a b := by
  induction h with
  | nil => simp at ha
  | @cons x y as bs hxy _ ih =>
    rcases List.mem_cons.1 ha with rfl | ha
    · exact ⟨y, by simp, hxy⟩
    · obtain ⟨b, hb, h⟩ := ih ha
      exact ⟨b, by simp [hb], h⟩

theorem before_of_sublist {α : Type} {l1 l2 : List α} {a b : α} (hnd : (l1 ++ b :: l2).Nodup)
    (h : [a, b].Sublist (l1 ++ b :: l2)) : a ∈ l1 := by
  rw [List.nodup_append] at hnd
  obtain ⟨hn1, hn2, hn3⟩ := hnd
  rw [List.sublist_append_iff] at h
  obtain ⟨x, y, e, h1, h2⟩ := h
  cases x with
  | nil =>
    exfalso
    rw [List.nil_append] at e
    subst e
    rw [List.nodup_cons] at hn2
    cases h2 with
    | cons _ h => exact hn2.1 (h.subset (by simp))
    | cons_cons _ h => exact hn2.1 (h.subset (by simp))
  | cons z x =>
    simp only [List.cons_append, List.cons.injEq] at e
    exact h1.subset (by rw [e.1]; simp)

open Classical in
/-- The tree whose calls are well formed. -/
theorem wellFormed_iff {t : Tree} (hc : Consistent' t) (hne : ∀ l ∈ t.links, l.name ≠ "")
    {js : List UJoint} {cs : List Call}
    (hpre : PreOrder t js) (hcs : List.Forall₂ (JointCall t) js cs) (cfg : Config) (m : BodyMass) :
    WellFormed cfg.galileanFrame (keptCalls cfg
      ([.link ⟨"", t.root, cfg.jointName t.root, ⟨1, 0⟩, .freeFlyer, m⟩] ++ cs)) ↔ BuildOk cfg t := by
  set r : Call := .link ⟨"", t.root, cfg.jointName t.root, ⟨1, 0⟩, .freeFlyer, m⟩ with hr
  have hk : keptCalls cfg ([r] ++ cs) = r :: keptCalls cfg cs := by
    simp [keptCalls, hr, Call.isLink]
  rw [hk]
  have h2 := forall₂_kept (cfg := cfg) hcs
  set ks := js.filter fun j => decide (Reported cfg j) with hks
  set ds := keptCalls cfg cs with hds
  have hmem : ∀ j, j ∈ ks ↔ (j ∈ t.joints ∧ Reach t j.child) ∧ Reported cfg j := by
    intro j; rw [hks, List.mem_filter, hpre.mem, decide_eq_true_eq]
  have hnd : ks.Nodup := hpre.nodup.filter _
  have hsub : ∀ j ∈ ks, ∀ k ∈ ks, k.parent = j.child → [j, k].Sublist ks := by
    intro j hj k hk' e
    have hj' := List.mem_filter.1 hj
    have hk'' := List.mem_filter.1 hk'
    have := (hpre.parent_first j hj'.1 k hk''.1 e).filter fun j => decide (Reported cfg j)
    rw [List.filter_cons, if_pos hj'.2, List.filter_cons, if_pos hk''.2, List.filter_nil] at this
    exact this
  have hchild : ∀ j ∈ t.joints, j.child ≠ "" := by
    intro j hj
    obtain ⟨l, hl, e⟩ := hc.children j hj
    rw [← e]; exact hne l hl
  have hroot : t.root ≠ "" := by
    obtain ⟨l, hl, e⟩ := hc.root_mem
    rw [← e]; exact hne l hl
  constructor
  · intro hw
    obtain ⟨hp0, hg0, -, -⟩ := hw [] r ds rfl
    have hgal : cfg.galileanFrame = "" := by
      rcases hp0 with e | ⟨d, hd, -⟩
      · exact e.symm
      · simp at hd
    have hall : ∀ j ∈ t.joints, Reach t j.child → Reported cfg j →
        ∃ l1 c l2, ds = l1 ++ c :: l2 ∧ JointCall t j c ∧ Allowed cfg.galileanFrame (r :: l1) c := by
      intro j hj hrj hrep
      obtain ⟨c, hcm, hjc⟩ := forall₂_mem' h2 ((hmem j).2 ⟨⟨hj, hrj⟩, hrep⟩)
      obtain ⟨l1, l2, e⟩ := List.append_of_mem hcm
      exact ⟨l1, c, l2, e, hjc, hw (r :: l1) c l2 (by rw [e]; rfl)⟩
    refine ⟨hgal, ?_, ?_⟩
    · intro j hj hrj hrep
      obtain ⟨l1, c, l2, e, hjc, -, -, -, h4⟩ := hall j hj hrj hrep
      rw [(jointCall_names hjc).2.1] at h4
      exact fun e => h4 r (by simp) (by rw [e]; rfl)
    · intro j hj hrj k hk' hkj hkf hjf
      have hrk : Reach t k.child := reach_child hk' (by rw [hkj]; exact hrj)
      obtain ⟨l1, c, l2, e, hjc, hpar, -, -, -⟩ := hall k hk' hrk fun _ => hkf
      obtain ⟨-, -, hpn, hlk⟩ := jointCall_names hjc
      rw [hpn, hkj] at hpar
      have hisl : c.isLink = true := hlk.2 hkf
      rcases hpar with e' | ⟨d, hd, e', hl⟩
      · exact hchild j hj (by rw [e', hgal])
      · have hdl := hl hisl
        rcases List.mem_cons.1 hd with rfl | hd
        · exact hc.root_not_child j hj e'.symm
        · obtain ⟨j', hj', hdj⟩ := forall₂_mem h2 (show d ∈ ds by rw [e]; exact List.mem_append_left _ hd)
          obtain ⟨g1, -, -, g4⟩ := jointCall_names hdj
          rw [g1] at e'
          have := List.inj_on_of_nodup_map hc.one_parent ((hmem j').1 hj').1.1 hj e'
          subst this
          exact g4.1 hdl hjf
  · intro hok
    intro l1 c l2 e
    cases l1 with
    | nil =>
      simp only [List.nil_append, List.cons.injEq] at e
      rw [← e.1]
      refine ⟨.inl ?_, ?_, by simp, by simp⟩
      · rw [hok.galilean]; rfl
      · rw [hok.galilean]; exact hroot
    | cons x l1 =>
      simp only [List.cons_append, List.cons.injEq] at e
      obtain ⟨rfl, e⟩ := e
      obtain ⟨k1, j, k2, e', f1, hjc, -⟩ := forall₂_split h2 e
      have hjks : j ∈ ks := by rw [e']; simp
      obtain ⟨⟨hj, hrj⟩, hrep⟩ := (hmem j).1 hjks
      obtain ⟨g1, g2, g3, g4⟩ := jointCall_names hjc
      have hk1 : ∀ k ∈ k1, k ∈ ks := fun k hk => by rw [e']; simp [hk]
      have hjk1 : j ∉ k1 := by
        intro h
        rw [e', List.nodup_append] at hnd
        exact hnd.2.2 j h j (by simp) rfl
      refine ⟨?_, ?_, ?_, ?_⟩
      · right
        by_cases hp : j.parent = t.root
        · exact ⟨r, by simp, by rw [g3, hp, hr, Call.frameName], fun _ => rfl⟩
        · obtain ⟨l, hl, el⟩ := hc.parents j hj
          obtain ⟨k, hk', ek⟩ := hc.others_child l hl (by rw [el]; exact hp)
          have hkj : j.parent = k.child := by rw [ek, el]
          have hrk : Reach t k.child := by
            rcases Relation.ReflTransGen.cases_head hrj with e0 | ⟨y, hy, hyr⟩
            · exact absurd e0 (hc.root_not_child j hj)
            · rw [← hkj]
              rwa [up_unique hc hy ⟨j, hj, rfl, rfl⟩] at hyr
          have hkrep : Reported cfg k := fun hn =>
            hok.bodies k hk' hrk j hj hkj (hrep hn)
          have hkks : k ∈ ks := (hmem k).2 ⟨⟨hk', hrk⟩, hkrep⟩
          have hs := hsub k hkks j hjks hkj
          rw [e'] at hs hnd
          obtain ⟨d, hd, hdk⟩ := forall₂_mem' f1 (before_of_sublist hnd hs)
          obtain ⟨q1, -, -, q4⟩ := jointCall_names hdk
          refine ⟨d, by simp [hd], by rw [q1, g3, hkj], fun hcl => ?_⟩
          exact q4.2 (hok.bodies k hk' hrk j hj hkj (g4.1 hcl))
      · rw [g1, hok.galilean]; exact hchild j hj
      · intro d hd
        rw [g1]
        rcases List.mem_cons.1 hd with rfl | hd
        · exact fun e0 => hc.root_not_child j hj e0.symm
        · obtain ⟨k, hk', hdk⟩ := forall₂_mem f1 hd
          rw [(jointCall_names hdk).1]
          intro e0
          have := List.inj_on_of_nodup_map hc.one_parent ((hmem k).1 (hk1 k hk')).1.1 hj e0
          exact hjk1 (this ▸ hk')
      · intro d hd
        rw [g2]
        rcases List.mem_cons.1 hd with rfl | hd
        · exact fun e0 => hok.joints j hj hrj hrep e0.symm
        · obtain ⟨k, hk', hdk⟩ := forall₂_mem f1 hd
          rw [(jointCall_names hdk).2.1]
          intro e0
          have := List.inj_on_of_nodup_map hc.joints_nodup ((hmem k).1 (hk1 k hk')).1.1 hj e0
          exact hjk1 (this ▸ hk')

theorem prepared_links {remove fix : Bool} {t t' : Tree} (h : Prepared remove fix t t')
    (hne : ∀ l ∈ t.links, l.name ≠ "") : ∀ l ∈ t'.links, l.name ≠ "" := by
  intro l hl
  have h1 : bare l ∈ t'.links.map bare := List.mem_map.2 ⟨l, hl, rfl⟩
  rw [h.links] at h1
  obtain ⟨l0, hl0, e⟩ := List.mem_map.1 h1
  have : l0.name = l.name := congrArg Prod.fst e
  rw [← this]
  exact hne l0 (List.mem_filter.1 hl0).1

/-- With the names checker around a builder that accepts everything, a description whose root link has
a mass is accepted exactly when the galilean frame has the empty name, the name of the root joint is
not used by another joint, and no moving joint is carried by a fixed one; otherwise the construction
throws. -/
theorem C65_accepted_iff (doc : List Elem) (t : Tree) (hl : load doc = .ok t) (ho : OneInertial t)
    (hr : Readable t) (hs : ∀ j ∈ t.joints, Supported j) (hne : ∀ l ∈ t.links, l.name ≠ "")
    (remove fix : Bool) (hrem : remove = true → ∃! j, j ∈ t.joints ∧ j.parent = t.root) :
    ∃ t', Prepared remove fix t t' ∧ ∃ n0, ∀ n ≥ n0, ∀ (σ : Type) (b : Interface σ) (cfg : Config)
      (s : σ), Accepting b cfg → (∀ l ∈ t'.links, l.name = t'.root → l.inertials ≠ []) →
      ((∃ s', buildFromUrdf (NamesChecker.interface b) n doc remove fix (NamesChecker.new b s) =
        some (.ok (), s')) ↔ BuildOk cfg t') := by
  have hc := (C45_consistent doc t hl).1
  obtain ⟨n1, t', hc', hr', hp, hn1⟩ := prepare_spec t hc ho hr remove fix hrem
  have hs' : ∀ j ∈ t'.joints, Reach t' j.child → Supported j := by
    intro j hj _
    obtain ⟨names, e⟩ := hp.joints
    rw [e] at hj
    obtain ⟨k, hk, rfl⟩ := List.mem_map.1 hj
    unfold markFixed
    split_ifs
    · exact .inl rfl
    · exact hs k (List.mem_filter.1 hk).1
  obtain ⟨js, cs, h1, h2, n2, hn2⟩ := buildFromTree_spec t' hc' hr' hp.massless hs'
  refine ⟨t', hp, max n1 n2, fun n hn σ b cfg s hb hroot => ?_⟩
  obtain ⟨rs, ⟨l, hlm, hln, hrs⟩, h4⟩ := hn2 n (le_trans (le_max_right _ _) hn) _
    (NamesChecker.interface b) (NamesChecker.new b s)
  rcases hrs with ⟨h0, -⟩ | ⟨m, hm, rfl⟩
  · exact absurd h0 (hroot l hlm hln)
  · have hcfg : (NamesChecker.interface b).config (NamesChecker.new b s) = cfg := hb.config s
    rw [hcfg] at h4
    rw [← wellFormed_iff hc' (prepared_links hp hne) h1 h2 cfg m]
    have hg := giveAll_checker hb
      ([.link ⟨"", t'.root, cfg.jointName t'.root, ⟨1, 0⟩, .freeFlyer, m⟩] ++ cs) []
      (Known.init cfg.galileanFrame) s (Tracks.init _) (by intro l1 c l2 h; simp at h)
    rw [List.nil_append] at hg
    rw [← hg]
    have hnew : NamesChecker.new b s = (Known.init cfg.galileanFrame, s) := by
      rw [NamesChecker.new, hb.config]
    unfold buildFromUrdf
    simp only [hl, hn1 n (le_trans (le_max_left _ _) hn)]
    rw [h4, hnew]
    simp

/-- A massless root link is not given to the builder although its children are, so that the names
checker rejects every description whose root link is massless and that has a joint to report: the
exploration does not stop there, contrary to the documentation. -/
theorem C65_massless_root (doc : List Elem) (t : Tree) (hl : load doc = .ok t) (ho : OneInertial t)
    (hr : Readable t) (hs : ∀ j ∈ t.joints, Supported j)
    (remove fix : Bool) (hrem : remove = true → ∃! j, j ∈ t.joints ∧ j.parent = t.root) :
    ∃ t', Prepared remove fix t t' ∧ ∃ n0, ∀ n ≥ n0, ∀ (σ : Type) (b : Interface σ) (cfg : Config)
      (s : σ), Accepting b cfg → (∀ l ∈ t'.links, l.name = t'.root → l.inertials = []) →
      (∀ l ∈ t.links, l.name ≠ cfg.galileanFrame) →
      ((∃ s', buildFromUrdf (NamesChecker.interface b) n doc remove fix (NamesChecker.new b s) =
        some (.ok (), s')) ↔ ∀ j ∈ t'.joints, Reach t' j.child → ¬ Reported cfg j) := by
  have hc := (C45_consistent doc t hl).1
  obtain ⟨n1, t', hc', hr', hp, hn1⟩ := prepare_spec t hc ho hr remove fix hrem
  have hs' : ∀ j ∈ t'.joints, Reach t' j.child → Supported j := by
    intro j hj _
    obtain ⟨names, e⟩ := hp.joints
    rw [e] at hj
    obtain ⟨k, hk, rfl⟩ := List.mem_map.1 hj
    unfold markFixed
    split_ifs
    · exact .inl rfl
    · exact hs k (List.mem_filter.1 hk).1
  obtain ⟨js, cs, h1, h2, n2, hn2⟩ := buildFromTree_spec t' hc' hr' hp.massless hs'
  refine ⟨t', hp, max n1 n2, fun n hn σ b cfg s hb hroot hgal => ?_⟩
  obtain ⟨rs, ⟨l, hlm, hln, hrs⟩, h4⟩ := hn2 n (le_trans (le_max_right _ _) hn) _
    (NamesChecker.interface b) (NamesChecker.new b s)
  rcases hrs with ⟨h0, rfl⟩ | ⟨m, ⟨i, rest, p, hi, -⟩, -⟩
  swap
  · rw [hroot l hlm hln] at hi; simp at hi
  have hg := giveAll_checker hb cs [] (Known.init cfg.galileanFrame) s (Tracks.init _)
    (by intro l1 c l2 h; simp at h)
  rw [List.nil_append] at hg
  have hnew : NamesChecker.new b s = (Known.init cfg.galileanFrame, s) := by
    rw [NamesChecker.new, hb.config]
  have hbuild : (∃ s', buildFromUrdf (NamesChecker.interface b) n doc remove fix
      (NamesChecker.new b s) = some (.ok (), s')) ↔
      WellFormed cfg.galileanFrame (keptCalls cfg cs) := by
    rw [← hg]
    unfold buildFromUrdf
    simp only [hl, hn1 n (le_trans (le_max_left _ _) hn)]
    rw [h4, hnew]
    simp
  rw [hbuild]
  classical
  have h3 := forall₂_kept (cfg := cfg) h2
  constructor
  · intro hw j hj hrj hrep
    have hjk : j ∈ js.filter fun j => decide (Reported cfg j) := by
      rw [List.mem_filter, h1.mem, decide_eq_true_eq]
      exact ⟨⟨hj, hrj⟩, hrep⟩
    obtain ⟨c, hcm, -⟩ := forall₂_mem' h3 hjk
    cases hk : keptCalls cfg cs with
    | nil => rw [hk] at hcm; simp at hcm
    | cons d ds =>
      rw [hk] at hw h3
      obtain ⟨k1, k, k2, e, f1, hdk, -⟩ := forall₂_split h3 (b1 := []) rfl
      obtain ⟨hpar, -⟩ := hw [] d ds rfl
      rcases hpar with e' | ⟨x, hx, -⟩
      · rw [(jointCall_names hdk).2.2.1] at e'
        have hkm : k ∈ js.filter fun j => decide (Reported cfg j) := by rw [e]; simp
        rw [List.mem_filter, h1.mem] at hkm
        obtain ⟨l1, hl1, e1⟩ := hc'.parents k hkm.1.1
        have h5 : bare l1 ∈ t'.links.map bare := List.mem_map.2 ⟨l1, hl1, rfl⟩
        rw [hp.links] at h5
        obtain ⟨l2, hl2, e2⟩ := List.mem_map.1 h5
        have e3 : l2.name = l1.name := congrArg Prod.fst e2
        exact hgal l2 (List.mem_filter.1 hl2).1 (by rw [e3, e1, e'])
      · simp at hx
  · intro hno l1 c l2 e
    obtain ⟨k1, k, k2, e', -, -, -⟩ := forall₂_split h3 e
    have hkm : k ∈ js.filter fun j => decide (Reported cfg j) := by rw [e']; simp
    rw [List.mem_filter, h1.mem, decide_eq_true_eq] at hkm
    exact absurd hkm.2 (hno k hkm.1.1 hkm.1.2)

theorem runCalls_disc {σ : Type} (v : Visitor σ) (tr : List Event) (j : UJoint) (hj : Event.disc j ∈ tr)
    (s s' : σ) (h : runCalls v tr s = (.ok (), s')) : ∃ s1 x s2, v.discover j s1 = (.ok x, s2) := by
  induction tr generalizing s with
  | nil => simp at hj
  | cons e tr ih =>
    cases e with
    | disc k =>
      rw [runCalls] at h
      rcases hd : v.discover k s with ⟨r, s1⟩
      rw [hd] at h
      cases r with
      | ok x =>
        rcases List.mem_cons.1 hj with e | hj
        · rw [Event.disc.injEq] at e
          rw [e]
          exact ⟨s, x, s1, hd⟩
        · exact ih hj s1 h
      | throws => simp at h
      | ub => simp at h
    | fin k =>
      rw [runCalls] at h
      rcases hd : v.finish k s with ⟨r, s1⟩
      rw [hd] at h
      have hj' : Event.disc j ∈ tr := by simpa using hj
      cases r with
      | ok x => exact ih hj' s1 h
      | throws => simp at h
      | ub => simp at h

/-- If a joint below the root is still prismatic, planar, or turns about an axis other than x, y or z
once the tree is edited, the construction fails, whatever the builder does. -/
theorem C65_unsupported {σ : Type} (b : Interface σ) (n : ℕ) (doc : List Elem) (t t' : Tree)
    (hl : load doc = .ok t) (remove fix : Bool)
    (hp : prepare n remove fix t = some (.ok (), t')) (hc : Consistent' t')
    (j : UJoint) (hj : j ∈ t'.joints) (hr : Reach t' j.child) (hs : ¬ Supported j) (s s' : σ) :
    buildFromUrdf b n doc remove fix s ≠ some (.ok (), s') := by
  intro h
  unfold buildFromUrdf at h
  simp only [hl, hp] at h
  unfold buildFromTree at h
  cases hfl : t'.findLink t'.root with
  | none => simp [hfl] at h
  | some l =>
    simp only [hfl] at h
    rcases hd : discoverLink b s "" t'.root ⟨1, 0⟩ .freeFlyer l none with ⟨r, s1⟩
    rw [hd] at h
    cases r with
    | throws => simp at h
    | ub => simp at h
    | ok x =>
      simp only at h
      obtain ⟨tr, hC, n0, hn0⟩ := C47_traverse t' hc fun _ => true
      have h1 := hn0 n0 le_rfl σ _ (buildVisitor_decides b t') s1
      have h2 := C47_bound _ t' n n0 s1 _ _ h h1
      obtain ⟨s2, y, s3, h3⟩ := runCalls_disc _ tr j ((C47_all_visited t' hc tr hC j hj).1.2 hr) s1 s'
        h2.symm
      simp only [buildVisitor] at h3
      rw [if_neg fun e => hs (.inl e)] at h3
      cases hm : movingType j with
      | ok ty => exact hs (.inr ⟨ty, movingType_ok hm⟩)
      | throws => simp [hm] at h3
      | ub => simp [hm] at h3

/-! ### Examples -/

/-- A leg that turns about the vertical axis, with a fixed foot, on a base that has a mass or not; the
toe turns on the foot if `toe`. Helper of the proofs. Not in /repo: specification. -/
def legDoc (baseMass toe : Bool) : List Elem :=
  let m : UInertial := ⟨none, ⟨2, 1, 0, 0, 1, 0, 1⟩⟩
  [.link (some "base") (if baseMass then [m] else []) [] [], .link (some "leg") [m] [] [],
   .link (some "foot") [] [] [], .link (some "toe") [m] [] [],
   .joint (some "hip") (some "base") (some "leg") (some .revolute) none (some ![0, 0, 1]) none,
   .joint (some "ankle") (some "leg") (some "foot") (some .fixed) none none none,
   .joint (some "knuckle") (some (if toe then "foot" else "leg")) (some "toe") (some .revolute) none
     none none]

theorem legDoc_hyps (baseMass toe : Bool) : ∃ t, load (legDoc baseMass toe) = .ok t ∧ OneInertial t ∧
    Readable t ∧ (∀ j ∈ t.joints, Supported j) ∧ (∀ l ∈ t.links, l.name ≠ "") ∧ t.root = "base" ∧
    (∃! j, j ∈ t.joints ∧ j.parent = t.root) ∧ t.links = docLinks (legDoc baseMass toe) ∧
    ∀ j, j ∈ t.joints ↔ j ∈ docJoints (legDoc baseMass toe) := by
  have hacc : Acceptable (legDoc baseMass toe) := by
    constructor
    · simp [legDoc, Complete]
    · simp [legDoc, docLinks]
    · simp [legDoc, docJoints]
    · cases toe <;> simp [legDoc, docJoints, docLinks]
    · simp [legDoc, docJoints, docLinks]
    · simp [legDoc, docJoints]
    · refine ⟨"base", by simp [legDoc, docJoints, docLinks], ?_⟩
      intro y hy
      simp [legDoc, docJoints, docLinks] at hy
      tauto
    · simp [legDoc, docJoints]
    · intro ds j rest e s hs
      have : j ∈ docJoints (legDoc baseMass toe) := by rw [e]; simp
      simp [legDoc, docJoints] at this
      rcases this with rfl | rfl | rfl <;> simp at hs
  obtain ⟨t, ht⟩ := (C45_accepts_iff _).1.2 hacc
  obtain ⟨-, hl, hj, hr1, hr2⟩ := (load_ok_iff _ t).1 ht
  have hmem : ∀ j, j ∈ t.joints ↔ j ∈ docJoints (legDoc baseMass toe) := by
    intro j; rw [hj, index_mem]
  have hroot : t.root = "base" := by
    simp [legDoc, docJoints, docLinks] at hr1 hr2
    tauto
  refine ⟨t, ht, ?_, ?_, ?_, ?_, hroot, ?_, hl, hmem⟩
  · intro l hl'
    rw [hl] at hl'
    simp [legDoc, docLinks] at hl'
    rcases hl' with rfl | rfl | rfl | rfl <;> cases baseMass <;> simp
  · constructor
    · intro j hj'
      rw [hmem] at hj'
      simp [legDoc, docJoints] at hj'
      rcases hj' with rfl | rfl | rfl <;> simp
    · intro j hj'
      rw [hmem] at hj'
      simp [legDoc, docJoints] at hj'
      rcases hj' with rfl | rfl | rfl <;> simp [UPose.fromPtree]
    · intro l hl' i hi
      rw [hl] at hl'
      simp [legDoc, docLinks] at hl'
      rcases hl' with rfl | rfl | rfl | rfl <;> cases baseMass <;> simp at hi <;>
        simp [hi, UPose.fromPtree]
    · intro l hl' i hi
      rw [hl] at hl'
      simp [legDoc, docLinks] at hl'
      rcases hl' with rfl | rfl | rfl | rfl <;> cases baseMass <;> simp at hi <;> simp [hi]
  · intro j hj'
    rw [hmem] at hj'
    simp [legDoc, docJoints] at hj'
    rcases hj' with rfl | rfl | rfl
    · exact .inr ⟨.rz, .inr ⟨.inl rfl, .inr (.inr ⟨rfl, rfl⟩)⟩⟩
    · exact .inl rfl
    · exact .inr ⟨.rx, .inr ⟨.inl rfl, .inl ⟨.inl rfl, rfl⟩⟩⟩
  · intro l hl'
    rw [hl] at hl'
    simp [legDoc, docLinks] at hl'
    rcases hl' with rfl | rfl | rfl | rfl <;> simp
  · refine ⟨⟨"hip", some .revolute, "base", "leg", none, some ![0, 0, 1], none⟩, ?_, ?_⟩
    · beta_reduce
      rw [hmem, hroot]
      simp [legDoc, docJoints]
    · rintro y ⟨hy, hyp⟩
      rw [hmem] at hy
      rw [hroot] at hyp
      simp [legDoc, docJoints] at hy
      rcases hy with rfl | rfl | rfl
      · rfl
      · simp at hyp
      · cases toe <;> simp at hyp

/-- The hypotheses of the theorems hold for a leg, with all options. -/
example (remove : Bool) : ∃ t, load (legDoc true false) = .ok t ∧ OneInertial t ∧ Readable t ∧
    (∀ j ∈ t.joints, Supported j) ∧ (∀ l ∈ t.links, l.name ≠ "") ∧
    (remove = true → ∃! j, j ∈ t.joints ∧ j.parent = t.root) := by
  obtain ⟨t, h1, h2, h3, h4, h5, -, h6, -⟩ := legDoc_hyps true false
  exact ⟨t, h1, h2, h3, h4, h5, fun _ => h6⟩

theorem legDoc_prepared (toe : Bool) {t t' : Tree} (hl : load (legDoc true toe) = .ok t)
    (hp : Prepared false false t t') :
    t'.joints = t.joints ∧ t'.root = t.root ∧ ∀ l ∈ t'.links, l.name = t'.root → l.inertials ≠ [] := by
  obtain ⟨t0, h0, -, -, -, -, hroot, -, hlinks, hjoints⟩ := legDoc_hyps true toe
  have : t0 = t := by rw [h0] at hl; exact Res.ok.inj hl
  subst this
  obtain ⟨mid, cont, names, e1, e2, e3, e4, e5, e6, e7⟩ := hp.steps
  have hcont : cont = [] := List.eq_nil_iff_forall_not_mem.2 fun x hx => by
    simpa using (e4 x).1 hx
  have hm1 : markFixed [] = id := by funext j; simp [markFixed]
  rw [hcont, hm1, List.map_id] at e3
  have hml : mid.links = t0.links := by rw [e2]; simp
  have hmj : mid.joints = t0.joints := by rw [e3]; simp
  have hall : ∀ n ∈ ["base", "leg", "toe"], CarriesMass mid n := by
    intro n hn
    unfold CarriesMass
    rw [hml, hlinks]
    have : ∃ l ∈ docLinks (legDoc true toe), l.inertials ≠ [] ∧ l.name = n := by
      simp only [List.mem_cons, List.not_mem_nil, or_false] at hn
      rcases hn with rfl | rfl | rfl <;> simp [legDoc, docLinks]
    obtain ⟨l, h1, h2, h3⟩ := this
    exact ⟨l, h1, h2, h3 ▸ .refl⟩
  have hnames : names = [] := List.eq_nil_iff_forall_not_mem.2 fun x hx => by
    obtain ⟨j, hj, -, hf, -, hcm⟩ := (e6 x).1 hx
    rw [hmj, hjoints] at hj
    refine hcm (hall _ ?_)
    simp [legDoc, docJoints] at hj
    rcases hj with rfl | rfl | rfl
    · simp
    · simp at hf
    · simp
  rw [hnames, hm1, List.map_id, hmj] at e5
  have hr : t'.root = t0.root := by simpa using hp.root
  refine ⟨e5, hr, fun l hl' e => ?_⟩
  rw [e7.carries l hl']
  · rw [e, hr, hroot]
    exact hall _ (by simp)
  · rw [e, ← e1]
    exact .refl
  · intro j hj _ e'
    rw [hmj, hjoints] at hj
    rw [e, hr, hroot] at e'
    simp [legDoc, docJoints] at hj
    rcases hj with rfl | rfl | rfl <;> simp at e'

/-- The description of a leg whose toe turns on a foot without mass can be loaded and read, all its
joints are supported and its root has a mass, yet the names checker never lets it be built: the foot is
reported as a static frame and the toe as a body carried by it. When the toe is carried by the leg
itself the same description is built. -/
theorem C65_moving_on_fixed (toe : Bool) :
    (∃ t, load (legDoc true toe) = .ok t ∧ OneInertial t ∧ Readable t ∧ ∀ j ∈ t.joints, Supported j) ∧
    ∃ n0, ∀ n ≥ n0, ∀ (σ : Type) (b : Interface σ) (cfg : Config) (s : σ), Accepting b cfg →
      cfg.galileanFrame = "" → (∀ x, cfg.jointName x = x ++ "_joint") →
      ((∃ s', buildFromUrdf (NamesChecker.interface b) n (legDoc true toe) false false
        (NamesChecker.new b s) = some (.ok (), s')) ↔ toe = false) := by
  obtain ⟨t, h1, h2, h3, h4, h5, h6, -, hlinks, hjoints⟩ := legDoc_hyps true toe
  refine ⟨⟨t, h1, h2, h3, h4⟩, ?_⟩
  obtain ⟨t', hp, n0, hn0⟩ := C65_accepted_iff _ t h1 h2 h3 h4 h5 false false (by simp)
  obtain ⟨hj, hr, hroot⟩ := legDoc_prepared toe h1 hp
  have hreach : ∀ x, Reach t' x ↔ Reach t x := by
    have : markFixed [] = id := by funext j; simp [markFixed]
    exact mark_reach (names := []) (by rw [hj, this, List.map_id]) hr
  refine ⟨n0, fun n hn σ b cfg s hb hg hjn => ?_⟩
  rw [hn0 n hn σ b cfg s hb hroot]
  have hm : ∀ j, j ∈ t'.joints ↔ j ∈ docJoints (legDoc true toe) := by rw [hj]; exact hjoints
  constructor
  · intro hok
    cases toe with
    | false => rfl
    | true =>
      exfalso
      have hk1 : (⟨"hip", some .revolute, "base", "leg", none, some ![0, 0, 1], none⟩ : UJoint) ∈
          t'.joints := by rw [hm]; simp [legDoc, docJoints]
      have hk2 : (⟨"ankle", some .fixed, "leg", "foot", none, none, none⟩ : UJoint) ∈ t'.joints := by
        rw [hm]; simp [legDoc, docJoints]
      have hk3 : (⟨"knuckle", some .revolute, "foot", "toe", none, none, none⟩ : UJoint) ∈ t'.joints := by
        rw [hm]; simp [legDoc, docJoints]
      have hb0 : Reach t' "base" := by rw [← h6, ← hr]; exact .refl
      have hb1 : Reach t' "leg" := reach_child hk1 hb0
      have hb2 : Reach t' "foot" := reach_child hk2 hb1
      exact hok.bodies _ hk2 hb2 _ hk3 rfl (by simp) rfl
  · rintro rfl
    refine ⟨hg, ?_, ?_⟩
    · intro j hj' _ _
      rw [hm] at hj'
      rw [hr, h6, hjn]
      simp [legDoc, docJoints] at hj'
      rcases hj' with rfl | rfl | rfl <;> decide
    · intro j hj' _ k hk e hkf hjf
      rw [hm] at hj' hk
      simp [legDoc, docJoints] at hj' hk
      rcases hj' with rfl | rfl | rfl <;> rcases hk with rfl | rfl | rfl <;> simp_all

/-- A builder that accepts everything and records the calls. Helper of the proofs. Not in /repo:
specification. -/
def acceptAll : Interface (List Call) where
  config _ := ⟨false, fun n => n ++ "_joint", ""⟩
  addLink s l := (.ok (), s ++ [.link l])
  addStaticFrame s f := (.ok (), s ++ [.frame f])

theorem acceptAll_accepting : Accepting acceptAll ⟨false, fun n => n ++ "_joint", ""⟩ :=
  ⟨fun _ => rfl, fun s c => by cases c <;> rfl⟩

/-- The hypotheses of `C65_moving_on_fixed` on the builder hold for it. -/
example : Accepting acceptAll ⟨false, fun n => n ++ "_joint", ""⟩ ∧
    (∀ x : String, (acceptAll.config []).jointName x = x ++ "_joint") := ⟨acceptAll_accepting, fun _ => rfl⟩

/-- A leg on a base without mass meets the hypotheses of `C65_massless_root`. -/
example : ∃ t, load (legDoc false false) = .ok t ∧ OneInertial t ∧ Readable t ∧
    (∀ j ∈ t.joints, Supported j) ∧ ∀ l ∈ t.links, l.name ≠ (acceptAll.config []).galileanFrame := by
  obtain ⟨t, h1, h2, h3, h4, h5, -⟩ := legDoc_hyps false false
  exact ⟨t, h1, h2, h3, h4, h5⟩

/-- A joint that slides is not supported, nor one that turns about a slanted axis. -/
example : ¬ Supported ⟨"j", some .prismatic, "a", "b", none, none, none⟩ ∧
    ¬ Supported ⟨"j", some .revolute, "a", "b", none, some ![1, 1, 0], none⟩ := by
  constructor <;> simp [Supported, Motion]

end AlMath
