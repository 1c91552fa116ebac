import Verif.Lemmas.UrdfXmlFrame
import Verif.Props.C48

/-!
Loading a document, and loading it again after editions.
-/

namespace AlMath.UrdfXml

open AlMath.Urdf AlMath.Spec AlMath.Spec.UrdfXml

theorem load_view {doc : Nodes} {x : XTree} (h : load doc = .ok x) :
    x.doc = doc ∧ InStep x ∧ Urdf.load (doc.map readElem) = .ok (view x) := by
  obtain ⟨t, ht, rfl⟩ := Res.map_eq_ok.1 h
  obtain ⟨ha, h1, h2, -, -⟩ := (load_ok_iff _ t).1 ht
  have hnd : ((jointsOf doc).map UJoint.name).Nodup := ha.joints_nodup
  have hv : view ⟨doc, t.joints.map UJoint.name, t.root⟩ = t := by
    unfold view
    dsimp only
    rw [filterMap_find fun k hk => ?_]
    · cases t
      simp only at h1
      rw [h1]
      rfl
    · refine find_name hnd ?_
      rw [h2, index_mem] at hk
      exact hk
  refine ⟨rfl, ⟨⟨?_, ha.links_nodup, hnd⟩, ?_⟩, by rw [ht, hv]⟩
  · intro c hc
    exact ha.complete _ (List.mem_map_of_mem hc)
  · rw [h2]
    exact (index_perm _).map _

theorem view_perm {x : XTree} (h : InStep x) : (view x).joints.Perm (jointsOf x.doc) := by
  have h1 : (view x).joints.Nodup := List.Nodup.of_map _ h.view_nodup
  have h2 : (jointsOf x.doc).Nodup := List.Nodup.of_map _ h.doc.joints_nodup
  exact (List.perm_ext_iff_of_nodup h1 h2).2 fun j => h.view_mem j

/-- Mimic references that the loader accepts. Helper of the proofs. Not in /repo: specification. -/
def MimicOk (js : List UJoint) : Prop :=
  MimicOrder js ∧ ∀ j ∈ js, ∀ s, j.mimic = some s → ∃ k ∈ js, k.name = s

theorem reload {x : XTree} (h : InStep x) (hc : Consistent' (view x)) (hm : MimicOk (jointsOf x.doc)) :
    ∃ x', load x.doc = .ok x' ∧ x'.root = x.root ∧ (view x').links = (view x).links ∧
      (view x').joints.Perm (view x).joints := by
  have hmem : ∀ j, j ∈ jointsOf x.doc ↔ j ∈ (view x).joints := fun j => (h.view_mem j).symm
  have hp := view_perm h
  have ha : Acceptable (x.doc.map readElem) := by
    refine ⟨?_, h.doc.links_nodup, h.doc.joints_nodup, fun j hj => hc.parents j ((hmem j).1 hj),
      fun j hj => hc.children j ((hmem j).1 hj), ((hp.map _).nodup_iff).1 hc.one_parent, ?_, hm.2, hm.1⟩
    · intro e he
      obtain ⟨c, hc', rfl⟩ := List.mem_map.1 he
      exact h.doc.complete c hc'
    · refine ⟨x.root, ⟨?_, ?_⟩, ?_⟩
      · obtain ⟨l, hl, e⟩ := hc.root_mem
        exact List.mem_map.2 ⟨l, hl, e⟩
      · intro hr
        obtain ⟨j, hj, e⟩ := List.mem_map.1 hr
        exact hc.root_not_child j ((hmem j).1 hj) e
      · rintro l ⟨h1, h2⟩
        obtain ⟨u, hu, rfl⟩ := List.mem_map.1 h1
        by_contra hne
        obtain ⟨j, hj, e⟩ := hc.others_child u hu hne
        exact h2 (List.mem_map.2 ⟨j, (hmem j).2 hj, e⟩)
  obtain ⟨l, hl, e⟩ := hc.root_mem
  have ht : Urdf.load (x.doc.map readElem) =
      .ok ⟨linksOf x.doc, index (jointsOf x.doc), x.root⟩ := by
    refine (load_ok_iff _ _).2 ⟨ha, rfl, rfl, ?_, ?_⟩
    · exact List.mem_map.2 ⟨l, hl, e⟩
    · intro hr
      obtain ⟨j, hj, e⟩ := List.mem_map.1 hr
      exact hc.root_not_child j ((hmem j).1 hj) e
  have hld : load x.doc = .ok ⟨x.doc, (index (jointsOf x.doc)).map UJoint.name, x.root⟩ := by
    unfold load
    rw [ht]; rfl
  refine ⟨_, hld, rfl, rfl, ?_⟩
  obtain ⟨-, -, h3⟩ := load_view hld
  rw [ht] at h3
  have h4 := Res.ok.inj h3
  rw [← h4]
  exact (index_perm _).trans hp.symm

/-! ### Mimic references -/

/-- The names and mimic references of joints. Helper of the proofs. Not in /repo: specification. -/
def mimicData (js : List UJoint) : List (String × Option String) := js.map fun j => (j.name, j.mimic)

theorem mimicData_mem {a b : List UJoint} (hab : mimicData a = mimicData b) : ∀ k ∈ a, ∃ k' ∈ b,
    k'.name = k.name ∧ k'.mimic = k.mimic := by
  intro k hk
  have : (k.name, k.mimic) ∈ mimicData b := by
    rw [← hab]; exact List.mem_map.2 ⟨k, hk, rfl⟩
  obtain ⟨k', h1, h2⟩ := List.mem_map.1 this
  simp only [Prod.mk.injEq] at h2
  exact ⟨k', h1, h2.1, h2.2⟩

theorem mimicOrder_congr {js js' : List UJoint} (h : mimicData js' = mimicData js) (hm : MimicOrder js) :
    MimicOrder js' := by
  intro ds j rest e s hs
  rw [e] at h
  simp only [mimicData, List.map_append, List.map_cons] at h
  obtain ⟨ds0, r0, e0, hd, hr⟩ := List.map_eq_append_iff.1 h.symm
  obtain ⟨j0, rest0, e1, hj, hrest⟩ := List.map_eq_cons_iff.1 hr
  simp only [Prod.mk.injEq] at hj
  subst e1
  obtain ⟨m1, m2⟩ := hm ds0 j0 rest0 e0 s (by rw [hj.2]; exact hs)
  refine ⟨by rw [← hj.1]; exact m1, ?_⟩
  rintro ⟨⟨k, hk, hks⟩, k2, hk2, hk2s⟩
  obtain ⟨a, ha, a1, -⟩ := mimicData_mem (a := ds) (b := ds0) hd.symm k hk
  obtain ⟨b, hb, -, b2⟩ := mimicData_mem (a := ds) (b := ds0) hd.symm k2 hk2
  exact m2 ⟨⟨a, ha, a1.trans hks⟩, b, hb, by rw [b2, hk2s, hj.1]⟩

theorem mimicOk_congr {js js' : List UJoint} (h : mimicData js' = mimicData js) (hm : MimicOk js) :
    MimicOk js' := by
  refine ⟨mimicOrder_congr h hm.1, ?_⟩
  intro j hj s hs
  obtain ⟨j0, h1, -, h2⟩ := mimicData_mem h j hj
  obtain ⟨k, hk, e⟩ := hm.2 j0 h1 s (h2.trans hs)
  obtain ⟨k', h3, h4, -⟩ := mimicData_mem h.symm k hk
  exact ⟨k', h3, h4.trans e⟩

theorem load_mimicOk {doc : Nodes} {x : XTree} (h : load doc = .ok x) : MimicOk (jointsOf doc) := by
  obtain ⟨-, -, h3⟩ := load_view h
  have ha := ((load_ok_iff _ _).1 h3).1
  exact ⟨ha.order, ha.mimics⟩

theorem load_consistent {doc : Nodes} {x : XTree} (h : load doc = .ok x) : Consistent' (view x) :=
  (C45_consistent _ _ (load_view h).2.2).1

/-- What an edition must keep of a joint. Helper of the proofs. Not in /repo: specification. -/
theorem edited_joints {P : String × Node → Node → Prop} {β : Type} (f : UJoint → β)
    (hP : ∀ c n, P c n → c.1 = "joint" → ∀ j k, IsJoint c.2 j → IsJoint n k → f k = f j) {doc doc' : Nodes}
    (h : Edited P doc doc') (h1 : ∀ c ∈ doc, Complete (readElem c))
    (h2 : ∀ c ∈ doc', Complete (readElem c)) : (jointsOf doc').map f = (jointsOf doc).map f := by
  induction h with
  | nil => rfl
  | @cons c c' l l' hc hl ih =>
    rw [jointsOf_cons, jointsOf_cons, List.map_append, List.map_append,
      ih (fun d hd => h1 d (by simp [hd])) (fun d hd => h2 d (by simp [hd]))]
    congr 1
    rcases read_cases c (h1 c (by simp)) with ⟨e, l1, a1, -, a3⟩ | ⟨e, j, a1, -, a3⟩ | ⟨e, e', -, a3⟩ <;>
    rcases read_cases c' (h2 c' (by simp)) with ⟨d, l2, b1, -, b3⟩ | ⟨d, k, b1, -, b3⟩ | ⟨d, d', -, b3⟩
    · rw [a3, b3]
    · rw [hc.1, e] at d; simp at d
    · rw [hc.1] at d; exact absurd e d
    · rw [hc.1, e] at d; simp at d
    · rw [a3, b3]
      simp only [List.map_cons, List.map_nil, List.cons.injEq, and_true]
      rcases hc.2 with h3 | h3
      · rw [h3] at b1
        rw [a1.unique b1]
      · exact hP _ _ h3 e j k a1 b1
    · rw [hc.1] at d'; exact absurd e d'
    · rw [hc.1] at d; exact absurd d e
    · rw [hc.1] at d; exact absurd d e'
    · rw [a3, b3]

theorem edited_links {P : String × Node → Node → Prop}
    (hP : ∀ c n, P c n → c.1 = "link" → n.name = c.2.name) {doc doc' : Nodes}
    (h : Edited P doc doc') (h1 : ∀ c ∈ doc, Complete (readElem c))
    (h2 : ∀ c ∈ doc', Complete (readElem c)) :
    (linksOf doc').map ULink.name = (linksOf doc).map ULink.name := by
  induction h with
  | nil => rfl
  | @cons c c' l l' hc hl ih =>
    rw [linksOf_cons, linksOf_cons, List.map_append, List.map_append,
      ih (fun d hd => h1 d (by simp [hd])) (fun d hd => h2 d (by simp [hd]))]
    congr 1
    rcases read_cases c (h1 c (by simp)) with ⟨e, l1, a1, a3, -⟩ | ⟨e, j, a1, a3, -⟩ | ⟨e, e', a3, -⟩ <;>
    rcases read_cases c' (h2 c' (by simp)) with ⟨d, l2, b1, b3, -⟩ | ⟨d, k, b1, b3, -⟩ | ⟨d, d', b3, -⟩
    · rw [a3, b3]
      simp only [List.map_cons, List.map_nil, List.cons.injEq, and_true]
      rcases hc.2 with h3 | h3
      · rw [h3] at b1
        rw [a1.unique b1]
      · have := hP _ _ h3 e
        rw [a1.name, b1.name] at this
        exact Option.some.inj this
    · rw [hc.1, e] at d; simp at d
    · rw [hc.1] at d; exact absurd e d
    · rw [hc.1, e] at d; simp at d
    · rw [a3, b3]
    · rw [hc.1] at d'; exact absurd e d'
    · rw [hc.1] at d; exact absurd d e
    · rw [hc.1] at d; exact absurd d e'
    · rw [a3, b3]

/-! ### Consistency -/

theorem consistent_congr {t t' : Tree} (hc : Consistent' t)
    (hj : (t'.joints.map bone).Perm (t.joints.map bone))
    (hl : t'.links.map ULink.name = t.links.map ULink.name) (hr : t'.root = t.root) : Consistent' t' := by
  have hmem : ∀ j ∈ t'.joints, ∃ k ∈ t.joints, k.name = j.name ∧ k.parent = j.parent ∧ k.child = j.child := by
    intro j hj'
    have : bone j ∈ t.joints.map bone := hj.mem_iff.1 (List.mem_map_of_mem hj')
    obtain ⟨k, hk, e⟩ := List.mem_map.1 this
    simp only [bone, Prod.mk.injEq] at e
    exact ⟨k, hk, e.1, e.2.1, e.2.2⟩
  have hmem' : ∀ j ∈ t.joints, ∃ k ∈ t'.joints, k.child = j.child := by
    intro j hj'
    have : bone j ∈ t'.joints.map bone := hj.mem_iff.2 (List.mem_map_of_mem hj')
    obtain ⟨k, hk, e⟩ := List.mem_map.1 this
    simp only [bone, Prod.mk.injEq] at e
    exact ⟨k, hk, e.2.2⟩
  have hlink : ∀ n, (∃ l ∈ t'.links, l.name = n) ↔ ∃ l ∈ t.links, l.name = n := by
    intro n; rw [← List.mem_map, ← List.mem_map, hl]
  have e1 : ∀ L : List UJoint, L.map UJoint.name = (L.map bone).map Prod.fst := by
    intro L; rw [List.map_map]; rfl
  have e2 : ∀ L : List UJoint, L.map UJoint.child = (L.map bone).map fun b => b.2.2 := by
    intro L; rw [List.map_map]; rfl
  refine ⟨by rw [hl]; exact hc.links_nodup, ?_, ?_, ?_, ?_, ?_, ?_, ?_⟩
  · rw [e1]
    exact ((hj.map _).nodup_iff).2 (by rw [← e1]; exact hc.joints_nodup)
  · intro j hj'
    obtain ⟨k, hk, -, e, -⟩ := hmem j hj'
    rw [hlink, ← e]; exact hc.parents k hk
  · intro j hj'
    obtain ⟨k, hk, -, -, e⟩ := hmem j hj'
    rw [hlink, ← e]; exact hc.children k hk
  · rw [e2]
    exact ((hj.map _).nodup_iff).2 (by rw [← e2]; exact hc.one_parent)
  · rw [hlink, hr]; exact hc.root_mem
  · intro j hj'
    obtain ⟨k, hk, -, -, e⟩ := hmem j hj'
    rw [hr, ← e]; exact hc.root_not_child k hk
  · intro l hl' hne
    obtain ⟨l0, h1, h2⟩ := (hlink l.name).1 ⟨l, hl', rfl⟩
    rw [hr] at hne
    obtain ⟨j, hj', e⟩ := hc.others_child l0 h1 (by rw [h2]; exact hne)
    obtain ⟨k, hk, e'⟩ := hmem' j hj'
    exact ⟨k, hk, by rw [e', e, h2]⟩

theorem mapUpTo_map {α β : Type} {f : α → Res α} {g : α → β} (h : ∀ a b, f a = .ok b → g b = g a)
    (l : List α) : (mapUpTo f l).2.map g = l.map g := by
  induction l with
  | nil => rfl
  | cons a l ih =>
    simp only [mapUpTo]
    cases hf : f a with
    | throws => rfl
    | ub => rfl
    | ok b => simp only [List.map_cons, h a b hf, ih]

theorem transportLink_name (pose : UPose) (l : ULink) : (Urdf.transportLink pose l).2.name = l.name := by
  unfold Urdf.transportLink
  rcases mapUpTo (transportInertial pose) l.inertials with ⟨r, is⟩
  cases r with
  | throws => rfl
  | ub => rfl
  | ok u =>
    dsimp only
    rcases mapUpTo (Urdf.premul pose.inverse pose false) l.visuals with ⟨r, vs⟩
    cases r with
    | throws => rfl
    | ub => rfl
    | ok u => rfl

theorem transport_bones (t : Tree) (pose : UPose) (np : UJoint → Bool) :
    (t.transportRootLinkFrame pose np).2.joints.map bone = t.joints.map bone ∧
    (t.transportRootLinkFrame pose np).2.links.map ULink.name = t.links.map ULink.name ∧
    (t.transportRootLinkFrame pose np).2.root = t.root := by
  unfold Tree.transportRootLinkFrame
  have h1 : (mapUpTo (transportJoint pose t.root np) t.joints).2.map bone = t.joints.map bone := by
    refine mapUpTo_map ?_ _
    intro a b h
    unfold transportJoint at h
    split_ifs at h
    · obtain ⟨o, -, rfl⟩ := Res.map_eq_ok.1 h
      rfl
    · cases h; rfl
  rcases hm : mapUpTo (transportJoint pose t.root np) t.joints with ⟨r, js⟩
  rw [hm] at h1
  cases r with
  | throws => exact ⟨h1, rfl, rfl⟩
  | ub => exact ⟨h1, rfl, rfl⟩
  | ok u =>
    dsimp only
    cases hl : t.findLink t.root with
    | none => exact ⟨h1, rfl, rfl⟩
    | some l =>
      refine ⟨h1, ?_, rfl⟩
      dsimp only
      rw [List.map_map]
      refine List.map_congr_left fun x _ => ?_
      simp only [Function.comp]
      split_ifs with e
      · rw [transportLink_name, e]
        exact (findLink_some hl).2
      · rfl

theorem transportTo_bones (t : Tree) (j : UJoint) (b : Bool) :
    (t.transportToJoint j b).2.joints.map bone = t.joints.map bone ∧
    (t.transportToJoint j b).2.links.map ULink.name = t.links.map ULink.name ∧
    (t.transportToJoint j b).2.root = t.root := by
  unfold Tree.transportToJoint
  cases j.origin with
  | none => exact ⟨rfl, rfl, rfl⟩
  | some e =>
    dsimp only
    cases UPose.fromElem e with
    | throws => exact ⟨rfl, rfl, rfl⟩
    | ub => exact ⟨rfl, rfl, rfl⟩
    | ok pose => exact transport_bones _ _ _

theorem flipAxis_bone {j j' : UJoint} (h : Urdf.flipAxis j = .ok j') : bone j' = bone j := by
  unfold Urdf.flipAxis at h
  cases ht : j.type with
  | none => rw [ht] at h; cases h
  | some ty =>
    rw [ht] at h
    cases ty with
    | fixed => cases h; rfl
    | floating => cases h; rfl
    | revolute => dsimp only at h; split_ifs at h <;> cases h <;> rfl
    | continuous => dsimp only at h; split_ifs at h <;> cases h <;> rfl
    | prismatic => dsimp only at h; split_ifs at h <;> cases h <;> rfl
    | planar => dsimp only at h; split_ifs at h <;> cases h <;> rfl

theorem flipped_consistent {t1 : Tree} (hc1 : Consistent' t1) {pre post : List UJoint} {k k' : UJoint}
    (hjs : t1.joints = pre ++ k :: post) (hkp : k.parent = t1.root)
    (hb : bone k' = (k.name, k.child, k.parent)) :
    Consistent' ⟨t1.links, Urdf.replaceInIndex pre post k', k.child⟩ ∧
    ∀ i ∈ Urdf.replaceInIndex pre post k', i.name ≠ k.name → i ∈ t1.joints := by
  simp only [bone, Prod.mk.injEq] at hb
  obtain ⟨e1, e2, e3⟩ := hb
  have hkm : k ∈ t1.joints := by rw [hjs]; simp
  have hperm : (Urdf.replaceInIndex pre post k').Perm (pre ++ k' :: post) := replaceInIndex_perm pre post k'
  have hmem : ∀ i, i ∈ Urdf.replaceInIndex pre post k' ↔ i = k' ∨ i ∈ pre ∨ i ∈ post := by
    intro i; rw [hperm.mem_iff]; simp; tauto
  have hold : ∀ i, i ∈ pre ∨ i ∈ post → i ∈ t1.joints := by
    intro i hi; rw [hjs]; simp; tauto
  have hch := hc1.one_parent
  rw [hjs, List.map_append, List.map_cons, List.nodup_middle, List.nodup_cons] at hch
  have hnm := hc1.joints_nodup
  rw [hjs, List.map_append, List.map_cons] at hnm
  have hne : ∀ i, i ∈ pre ∨ i ∈ post → i.child ≠ k.child := by
    intro i hi e
    apply hch.1
    rw [← e, ← List.map_append]
    exact List.mem_map_of_mem (by simp; tauto)
  have hrc : ∀ i ∈ t1.joints, i.child ≠ t1.root := hc1.root_not_child
  refine ⟨⟨hc1.links_nodup, ?_, ?_, ?_, ?_, ?_, ?_, ?_⟩, ?_⟩
  · refine ((hperm.map _).nodup_iff).2 ?_
    rw [List.map_append, List.map_cons, e1]
    exact hnm
  · intro i hi
    rcases (hmem i).1 hi with rfl | hi
    · rw [e2]; exact hc1.children k hkm
    · exact hc1.parents i (hold i hi)
  · intro i hi
    rcases (hmem i).1 hi with rfl | hi
    · rw [e3]; exact hc1.parents k hkm
    · exact hc1.children i (hold i hi)
  · refine ((hperm.map _).nodup_iff).2 ?_
    rw [List.map_append, List.map_cons, List.nodup_middle, List.nodup_cons]
    refine ⟨?_, hch.2⟩
    rw [← List.map_append, e3, hkp]
    intro hi
    obtain ⟨i, hi, e⟩ := List.mem_map.1 hi
    exact hrc i (hold i (by simpa using hi)) e
  · exact hc1.children k hkm
  · intro i hi
    rcases (hmem i).1 hi with rfl | hi
    · rw [e3, hkp]; exact fun e => hrc k hkm e.symm
    · exact hne i hi
  · intro l hl hlne
    by_cases hlr : l.name = t1.root
    · exact ⟨k', (hmem k').2 (Or.inl rfl), by rw [e3, hkp, hlr]⟩
    · obtain ⟨i, hi, e⟩ := hc1.others_child l hl hlr
      rw [hjs] at hi
      have : i = k ∨ i ∈ pre ∨ i ∈ post := by simp at hi; tauto
      rcases this with rfl | hi
      · exact absurd e.symm hlne
      · exact ⟨i, (hmem i).2 (Or.inr hi), e⟩
  · intro i hi hin
    rcases (hmem i).1 hi with rfl | hi
    · exact absurd e1 hin
    · exact hold i hi

/-- Flipping a joint of the root link, whatever the origins and the outcome. -/
theorem flip_consistent {t t' : Tree} (hc : Consistent' t) {name : String} {b : Bool} {r : Res Unit}
    (h : t.flipRootLinkJoint name b = (r, t')) (hr : r ≠ .ub) :
    Consistent' t' ∧ (r = .ok () → (∃ j ∈ t.joints, j.name = name ∧ t'.root = j.child) ∧
    ∀ k ∈ t'.joints, k.name ≠ name → ∃ k0 ∈ t.joints, k0.name = k.name ∧ k0.child = k.child) := by
  unfold Tree.flipRootLinkJoint at h
  cases hj : t.findJoint name with
  | none =>
    rw [hj] at h
    simp only [Prod.mk.injEq] at h
    obtain ⟨rfl, rfl⟩ := h
    exact ⟨hc, by simp⟩
  | some j =>
    obtain ⟨hjm, hjn⟩ := findJoint_some hj
    rw [hj] at h
    dsimp only at h
    by_cases hp : j.parent ≠ t.root
    · rw [if_pos hp] at h
      simp only [Prod.mk.injEq] at h
      exact absurd h.1.symm hr
    rw [if_neg hp] at h
    rw [not_not] at hp
    obtain ⟨b1, b2, b3⟩ := transportTo_bones t j b
    rcases ht : t.transportToJoint j b with ⟨q, t1⟩
    rw [ht] at h b1 b2 b3
    dsimp only at b1 b2 b3
    have hc1 : Consistent' t1 := consistent_congr hc (List.Perm.of_eq b1) b2 b3
    cases q with
    | throws =>
      simp only [Prod.mk.injEq] at h
      obtain ⟨rfl, rfl⟩ := h
      exact ⟨hc1, by simp⟩
    | ub =>
      simp only [Prod.mk.injEq] at h
      exact absurd h.1.symm hr
    | ok u =>
      dsimp only at h
      unfold Tree.flipInIndex at h
      rcases hs : t1.joints.span (fun k => decide (k.name ≠ name)) with ⟨pre, post⟩
      rw [hs] at h
      cases post with
      | nil =>
        simp only [Prod.mk.injEq] at h
        exact absurd h.1.symm hr
      | cons k post =>
        dsimp only at h
        split_ifs at h with hdup
        · simp only [Prod.mk.injEq] at h
          exact absurd h.1.symm hr
        have hjs : t1.joints = pre ++ k :: post := by
          rw [List.span_eq_takeWhile_dropWhile] at hs
          simp only [Prod.mk.injEq] at hs
          rw [← hs.1, ← hs.2, List.takeWhile_append_dropWhile]
        have hkn : k.name = name := by
          rw [List.span_eq_takeWhile_dropWhile] at hs
          simp only [Prod.mk.injEq] at hs
          have := List.head?_dropWhile_not (fun k : UJoint => decide (k.name ≠ name)) t1.joints
          rw [hs.2] at this
          simpa using this
        have hkm : k ∈ t1.joints := by rw [hjs]; simp
        have hk0 : bone k = bone j := by
          have : bone k ∈ t.joints.map bone := by rw [← b1]; exact List.mem_map_of_mem hkm
          obtain ⟨k0, h1, h2⟩ := List.mem_map.1 this
          simp only [bone, Prod.mk.injEq] at h2
          have h3 := find_name hc.joints_nodup h1
          have h4 := find_name hc.joints_nodup hjm
          rw [h2.1, hkn, ← hjn, h4] at h3
          cases h3
          simp only [bone, h2.1, h2.2.1, h2.2.2]
        simp only [bone, Prod.mk.injEq] at hk0
        have hkp : k.parent = t1.root := by rw [hk0.2.1, hp, b3]
        cases hf : Urdf.flipAxis (Urdf.flipLinks k) with
        | ub =>
          rw [hf] at h
          simp only [Prod.mk.injEq] at h
          exact absurd h.1.symm hr
        | throws =>
          rw [hf] at h
          simp only [Prod.mk.injEq] at h
          obtain ⟨rfl, rfl⟩ := h
          exact ⟨(flipped_consistent hc1 hjs hkp (k' := Urdf.flipLinks k) rfl).1, by simp⟩
        | ok k' =>
          rw [hf] at h
          simp only [Prod.mk.injEq] at h
          obtain ⟨rfl, rfl⟩ := h
          obtain ⟨g1, g2⟩ := flipped_consistent hc1 hjs hkp (k' := k') (by rw [flipAxis_bone hf]; rfl)
          refine ⟨g1, fun _ => ⟨⟨j, hjm, hjn, hk0.2.2⟩, ?_⟩⟩
          intro i hi hin
          have : bone i ∈ t.joints.map bone := by
            rw [← b1]; exact List.mem_map_of_mem (g2 i hi (by rw [hkn]; exact hin))
          obtain ⟨i0, h1, h2⟩ := List.mem_map.1 this
          simp only [bone, Prod.mk.injEq] at h2
          exact ⟨i0, h1, h2.1, h2.2.2⟩

theorem flipAll_consistent (names : List String) : ∀ {t t' : Tree} {r : Res Unit}, Consistent' t →
    Tree.flipAll names t = (r, t') → r ≠ .ub →
    Consistent' t' ∧ (r = .ok () → names.Nodup → (names = [] → t'.root = t.root) ∧
    ∀ last, names.getLast? = some last → ∀ l, (∀ j ∈ t.joints, j.name = last → j.child = l) →
      t'.root = l) := by
  induction names with
  | nil =>
    intro t t' r hc h _
    simp only [Tree.flipAll, Prod.mk.injEq] at h
    obtain ⟨rfl, rfl⟩ := h
    exact ⟨hc, fun _ _ => ⟨fun _ => rfl, by simp⟩⟩
  | cons name rest ih =>
    intro t t' r hc h hr
    unfold Tree.flipAll at h
    rcases hf : t.flipRootLinkJoint name (rest ≠ [] : Bool) with ⟨q, t1⟩
    rw [hf] at h
    cases q with
    | throws =>
      simp only [Prod.mk.injEq] at h
      obtain ⟨rfl, rfl⟩ := h
      exact ⟨(flip_consistent hc hf (by simp)).1, by simp⟩
    | ub =>
      simp only [Prod.mk.injEq] at h
      exact absurd h.1.symm hr
    | ok u =>
      dsimp only at h
      obtain ⟨c1, c2⟩ := flip_consistent hc hf (by simp)
      obtain ⟨⟨j, hj, hjn, hjr⟩, c3⟩ := c2 rfl
      obtain ⟨d1, d2⟩ := ih c1 h hr
      refine ⟨d1, fun hok hnd => ⟨by simp, ?_⟩⟩
      rw [List.nodup_cons] at hnd
      obtain ⟨d2, d3⟩ := d2 hok hnd.2
      intro last hlast l hl
      cases rest with
      | nil =>
        simp only [List.getLast?_singleton, Option.some.injEq] at hlast
        rw [d2 rfl, hjr]
        exact hl j hj (hjn.trans hlast)
      | cons a rest =>
        rw [List.getLast?_cons_cons] at hlast
        refine d3 last hlast l ?_
        intro k hk hkn
        have hne : k.name ≠ name := by
          intro e
          apply hnd.1
          rw [← e, hkn]
          exact List.mem_of_getLast? hlast
        obtain ⟨k0, h1, h2, h3⟩ := c3 k hk hne
        rw [← h3]
        exact hl k0 h1 (h2.trans hkn)

end AlMath.UrdfXml
