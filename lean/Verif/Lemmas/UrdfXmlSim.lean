import Verif.Lemmas.UrdfXmlDoc

/-!
The functions of `RobotTree` on documents do to the tree seen through the document what Model/Urdf.lean
says.
-/

namespace AlMath.UrdfXml

open AlMath.Urdf AlMath.Spec AlMath.Spec.UrdfXml

/-! ### Views -/

theorem find_name {L : List UJoint} (h : (L.map UJoint.name).Nodup) {j : UJoint} (hj : j ∈ L) :
    L.find? (fun k => k.name = j.name) = some j := by
  induction L with
  | nil => simp at hj
  | cons a L ih =>
    rw [List.map_cons, List.nodup_cons] at h
    rcases List.mem_cons.1 hj with rfl | hj'
    · simp
    · have : a.name ≠ j.name := by
        intro e
        exact h.1 (e ▸ List.mem_map_of_mem hj')
      rw [List.find?_cons_of_neg (by simpa using this)]
      exact ih h.2 hj'

theorem find_map_name (L : List UJoint) (g : UJoint → UJoint) (h : ∀ k, (g k).name = k.name)
    (name : String) :
    (L.map g).find? (fun k => k.name = name) = (L.find? fun k => k.name = name).map g := by
  rw [List.find?_map]
  congr 2
  funext k
  simp [h]

theorem _root_.AlMath.Spec.UrdfXml.InStep.joints_nodup {x : XTree} (h : InStep x)
    : x.joints.Nodup := h.index.nodup_iff.2 h.doc.joints_nodup

theorem _root_.AlMath.Spec.UrdfXml.InStep.mem_find {x : XTree} (h : InStep x)
    {name : String} (hn : name ∈ x.joints) :
    ∃ j, (jointsOf x.doc).find? (fun j => j.name = name) = some j ∧ j.name = name ∧
      j ∈ jointsOf x.doc := by
  obtain ⟨j, hj, rfl⟩ := List.mem_map.1 (h.index.mem_iff.1 hn)
  exact ⟨j, find_name h.doc.joints_nodup hj, rfl, hj⟩

theorem _root_.AlMath.Spec.UrdfXml.InStep.view_names {x : XTree} (h : InStep x)
    : (view x).joints.map UJoint.name = x.joints := by
  have : ∀ l : List String, (∀ n ∈ l, n ∈ x.joints) →
      (l.filterMap fun name => (jointsOf x.doc).find? fun j => j.name = name).map UJoint.name = l := by
    intro l hl
    induction l with
    | nil => rfl
    | cons a l ih =>
      obtain ⟨j, hj, hn, -⟩ := h.mem_find (hl a (by simp))
      rw [List.filterMap_cons, hj]
      simp only [List.map_cons, hn]
      rw [ih fun n hn => hl n (by simp [hn])]
  exact this x.joints fun _ h => h

theorem _root_.AlMath.Spec.UrdfXml.InStep.view_nodup {x : XTree} (h : InStep x)
    : ((view x).joints.map UJoint.name).Nodup := by
  rw [h.view_names]; exact h.joints_nodup

theorem _root_.AlMath.Spec.UrdfXml.InStep.view_mem {x : XTree} (h : InStep x)
    (j : UJoint) : j ∈ (view x).joints ↔ j ∈ jointsOf x.doc := by
  simp only [view, List.mem_filterMap]
  constructor
  · rintro ⟨a, -, ha⟩
    exact List.mem_of_find?_eq_some ha
  · intro hj
    exact ⟨j.name, h.index.mem_iff.2 (List.mem_map_of_mem hj), find_name h.doc.joints_nodup hj⟩

theorem _root_.AlMath.Spec.UrdfXml.InStep.view_findJoint {x : XTree} (h : InStep x) (name : String) :
    (view x).findJoint name = (jointsOf x.doc).find? fun j => j.name = name := by
  cases hf : (jointsOf x.doc).find? fun j => j.name = name with
  | none =>
    rw [Tree.findJoint, List.find?_eq_none]
    intro j hj
    exact (List.find?_eq_none.1 hf) j ((h.view_mem j).1 hj)
  | some j =>
    have hj := List.mem_of_find?_eq_some hf
    have hn : j.name = name := by simpa using List.find?_some hf
    rw [← hn]
    exact find_name h.view_nodup ((h.view_mem j).2 hj)

/-- What the index and the document have for a joint name. -/
theorem _root_.AlMath.Spec.UrdfXml.InStep.joint_cases {x : XTree} (h : InStep x) (name : String) :
    (name ∉ x.joints ∧ x.joint name = none ∧ (view x).findJoint name = none) ∨
    ∃ n j, name ∈ x.joints ∧ x.joint name = some n ∧ findEl "joint" name x.doc = some n ∧
      IsJoint n j ∧ j.name = name ∧ j ∈ (view x).joints ∧ (view x).findJoint name = some j := by
  by_cases hm : name ∈ x.joints
  · right
    obtain ⟨j, hj, hn, hmem⟩ := h.mem_find hm
    rcases findEl_joint h.doc.complete name with ⟨-, h2⟩ | ⟨n, k, h1, h2, h3, h4⟩
    · rw [h2] at hj; simp at hj
    · rw [h4] at hj
      cases hj
      exact ⟨n, j, hm, by simp [XTree.joint, hm, h1], h1, h2, h3, (h.view_mem j).2 hmem,
        by rw [h.view_findJoint, h4]⟩
  · left
    refine ⟨hm, by simp [XTree.joint, hm], ?_⟩
    rw [h.view_findJoint, List.find?_eq_none]
    intro j hj hn
    exact hm (h.index.mem_iff.2 (List.mem_map.2 ⟨j, hj, by simpa using hn⟩))

/-- The element of a joint of the tree. -/
theorem _root_.AlMath.Spec.UrdfXml.InStep.joint_of_mem {x : XTree} (h : InStep x)
    {j : UJoint} (hj : j ∈ (view x).joints) :
    ∃ n, x.joint j.name = some n ∧ findEl "joint" j.name x.doc = some n ∧ IsJoint n j := by
  rcases h.joint_cases j.name with ⟨-, -, h3⟩ | ⟨n, k, h1, h2, h3, h4, h5, h6, h7⟩
  · exact absurd rfl ((by simpa using (List.find?_eq_none.1 h3) j hj : ¬ j.name = j.name))
  · have : k = j := by
      have e : (view x).findJoint j.name = some j := find_name h.view_nodup hj
      rw [h7] at e
      exact Option.some.inj e
    subst this
    exact ⟨n, h2, h3, h4⟩

theorem _root_.AlMath.Spec.UrdfXml.InStep.link_cases {x : XTree} (h : InStep x) (name : String) :
    (x.link name = none ∧ (view x).findLink name = none) ∨
    ∃ n l, x.link name = some n ∧ IsLink n l ∧ l.name = name ∧ (view x).findLink name = some l :=
  findEl_link h.doc.complete name

theorem _root_.AlMath.Spec.UrdfXml.InStep.filter_names {x : XTree} (h : InStep x)
    (P : String → Bool) (Q : UJoint → Bool)
    (hPQ : ∀ j ∈ (view x).joints, P j.name = Q j) :
    x.joints.filter P = ((view x).joints.filter Q).map UJoint.name := by
  conv_lhs => rw [← h.view_names]
  rw [List.filter_map]
  congr 1
  exact List.filter_congr fun j hj => hPQ j hj

theorem _root_.AlMath.Spec.UrdfXml.InStep.childJoints_eq {x : XTree} (h : InStep x) (link : String) :
    x.childJoints link = ((view x).childJoints link).map UJoint.name := by
  refine h.filter_names _ _ fun j hj => ?_
  obtain ⟨n, h1, -, h2⟩ := h.joint_of_mem hj
  simp [h1, h2.parent]

theorem _root_.AlMath.Spec.UrdfXml.InStep.view_childJoints {x : XTree} (h : InStep x)
    (link : String) (j : UJoint)
    (hj : j ∈ (view x).childJoints link) : j ∈ (view x).joints ∧ j.parent = link := by
  simpa [Tree.childJoints] using hj

/-- Edition of a joint of the document. -/
theorem view_setJoint {x : XTree} (h : InStep x) {n : Node} {j : UJoint} (hn : IsJoint n j) :
    InStep { x with doc := setEl "joint" j.name n x.doc } ∧
    view { x with doc := setEl "joint" j.name n x.doc } = (view x).editJoint j.name fun _ => j := by
  obtain ⟨h1, h2, h3⟩ := setEl_joint h.doc hn rfl
  have hg : ∀ k : UJoint, (if k.name = j.name then j else k).name = k.name := by
    intro k
    split_ifs with hk
    · exact hk.symm
    · rfl
  refine ⟨⟨h1, ?_⟩, ?_⟩
  · simp only [h3, List.map_map]
    have : (UJoint.name ∘ fun k => if k.name = j.name then j else k) = UJoint.name := funext hg
    rw [this]
    exact h.index
  · simp only [view, Tree.editJoint, h2, h3]
    congr 1
    rw [List.map_filterMap]
    congr 1
    funext name
    rw [find_map_name _ _ hg]

/-- Edition of a link of the document. -/
theorem view_setLink {x : XTree} (h : InStep x) {n : Node} {l : ULink} (hn : IsLink n l) :
    InStep { x with doc := setEl "link" l.name n x.doc } ∧
    view { x with doc := setEl "link" l.name n x.doc } = (view x).editLink l.name fun _ => l := by
  obtain ⟨h1, h2, h3⟩ := setEl_link h.doc hn rfl
  refine ⟨⟨h1, ?_⟩, ?_⟩
  · simp only [h2]
    exact h.index
  · simp only [view, Tree.editLink, h2, h3]

/-- Removal of a joint and a link. -/
theorem view_erase {x : XTree} (h : InStep x) {doc : Nodes} (joint link root : String)
    (hd : Indexable doc) (hl : linksOf doc = (linksOf x.doc).filter fun l => l.name ≠ link)
    (hj : jointsOf doc = (jointsOf x.doc).filter fun j => j.name ≠ joint) :
    InStep ⟨doc, x.joints.erase joint, root⟩ ∧
    view ⟨doc, x.joints.erase joint, root⟩ = { (view x).erase joint link with root := root } := by
  have he : x.joints.erase joint = x.joints.filter fun n => n ≠ joint := by
    rw [h.joints_nodup.erase_eq_filter]
    exact List.filter_congr fun n _ => by by_cases hn : n = joint <;> simp [hn]
  refine ⟨⟨hd, ?_⟩, ?_⟩
  · simp only [hj, he]
    have : ((jointsOf x.doc).filter fun j => j.name ≠ joint).map UJoint.name =
        ((jointsOf x.doc).map UJoint.name).filter fun n => n ≠ joint := by
      rw [List.filter_map]; rfl
    rw [this]
    exact h.index.filter _
  · simp only [view, Tree.erase, hl, hj, he]
    congr 1
    rw [List.filter_filterMap, List.filterMap_filter]
    refine List.filterMap_congr fun name _ => ?_
    by_cases hn : name = joint
    · subst hn
      have e : ∀ o : Option UJoint, (∀ j ∈ o, j.name = name) →
          o.filter (fun j => decide (j.name ≠ name)) = none := by
        intro o ho
        cases o with
        | none => rfl
        | some j => simp [Option.filter, ho j rfl]
      rw [e]
      · simp
      · intro j hj
        simpa using List.find?_some hj
    · simp only [ne_eq, hn, not_false_eq_true, decide_true, if_true, List.find?_filter]
      have : (jointsOf x.doc).find? (fun a => !decide (a.name = joint) && decide (a.name = name)) =
          (jointsOf x.doc).find? (fun j => decide (j.name = name)) := by
        congr 1
        funext a
        by_cases ha : a.name = name
        · simp [ha, hn]
        · simp [ha]
      have h2 : ∀ o : Option UJoint, (∀ j ∈ o, j.name = name) →
          o.filter (fun j => decide (j.name ≠ joint)) = o := by
        intro o ho
        cases o with
        | none => rfl
        | some j => simp [Option.filter, ho j rfl, hn]
      simp only [decide_not] at h2 ⊢
      rw [h2]
      · rw [← this]
        congr 1
        funext a
        by_cases ha : a.name = joint <;> simp [ha]
      · intro j hj
        simpa using List.find?_some hj

/-! ### Removal of joints -/

theorem rmRootJoint_sim {x : XTree} (h : InStep x) :
    x.rmRootJoint.1 = (view x).rmRootJoint.1 ∧ view x.rmRootJoint.2 = (view x).rmRootJoint.2 ∧
      InStep x.rmRootJoint.2 := by
  unfold XTree.rmRootJoint Tree.rmRootJoint
  rw [h.childJoints_eq]
  have hr : (view x).root = x.root := rfl
  rw [hr]
  cases hc : (view x).childJoints x.root with
  | nil => exact ⟨rfl, rfl, h⟩
  | cons j l =>
    cases l with
    | cons k l => exact ⟨rfl, rfl, h⟩
    | nil =>
      have hj := h.view_childJoints x.root j (by rw [hc]; simp)
      obtain ⟨n, h1, h2, h3⟩ := h.joint_of_mem hj.1
      simp only [List.map_cons, List.map_nil, h1, Option.bind_some, h3.child]
      rcases h.link_cases x.root with ⟨l1, l2⟩ | ⟨m, l, l1, l2, l3, l4⟩
      · rw [l1, l2]; exact ⟨rfl, rfl, h⟩
      · rw [l1, l4]
        dsimp only
        obtain ⟨e1, e2, e3⟩ := eraseEl_link h.doc x.root
        obtain ⟨f1, f2, f3⟩ := eraseEl_joint e1 j.name
        obtain ⟨g1, g2⟩ := view_erase h j.name x.root j.child f1 (by rw [f2, e3]) (by rw [f3, e2])
        exact ⟨rfl, by rw [g2, l3], g1⟩

theorem rmLeafJoint_sim {x : XTree} (h : InStep x) (name : String) :
    (x.rmLeafJoint name).1 = ((view x).rmLeafJoint name).1 ∧
      view (x.rmLeafJoint name).2 = ((view x).rmLeafJoint name).2 ∧ InStep (x.rmLeafJoint name).2 := by
  unfold XTree.rmLeafJoint Tree.rmLeafJoint
  rcases h.joint_cases name with ⟨-, h1, h2⟩ | ⟨n, j, -, h1, h2, h3, h4, h5, h6⟩
  · rw [h1, h2]; exact ⟨rfl, rfl, h⟩
  · rw [h1, h6]
    simp only [h3.child]
    rw [h.childJoints_eq]
    by_cases hc : (view x).childJoints j.child ≠ []
    · rw [if_pos (by simpa using hc), if_pos hc]; exact ⟨rfl, rfl, h⟩
    · rw [if_neg (by simpa using hc), if_neg hc]
      rcases h.link_cases j.child with ⟨l1, l2⟩ | ⟨m, l, l1, l2, l3, l4⟩
      · rw [l1, l2]; exact ⟨rfl, rfl, h⟩
      · rw [l1, l4]
        dsimp only
        obtain ⟨e1, e2, e3⟩ := eraseEl_joint h.doc name
        obtain ⟨f1, f2, f3⟩ := eraseEl_link e1 j.child
        obtain ⟨g1, g2⟩ := view_erase h name j.child x.root f1 (by rw [f3, e2]) (by rw [f2, e3])
        exact ⟨rfl, by rw [g2, l3, h4]; rfl, g1⟩

end AlMath.UrdfXml
