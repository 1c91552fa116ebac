import Verif.Lemmas.UrdfXmlEdit

/-!
Simulation of `define_as_root_link`, `makeJointFixed` and `makeJointFloating`.
-/

namespace AlMath.UrdfXml

open AlMath.Urdf AlMath.Spec AlMath.Spec.UrdfXml

/-! ### Elements -/

theorem flipLinks_isJoint {n : Node} {j : UJoint} (h : IsJoint n j) :
    ∃ n', flipLinks n = some n' ∧ IsJoint n' (Urdf.flipLinks j) := by
  have hpc : Node.Part ["child", "<xmlattr>", "link"] ["parent", "<xmlattr>", "link"] := by
    simp [Node.Part]
  have e : ∀ k, k ≠ "parent" → k ≠ "child" →
      ((n.put ["parent", "<xmlattr>", "link"] (.ofStr j.child)).put
        ["child", "<xmlattr>", "link"] (.ofStr j.parent)).find k = n.find k := by
    intro k h1 h2
    rw [Node.find_put_ne _ _ _ h2, Node.find_put_ne _ _ _ h1]
  refine ⟨(n.put ["parent", "<xmlattr>", "link"] (.ofStr j.child)).put
    ["child", "<xmlattr>", "link"] (.ofStr j.parent), by simp only [flipLinks, h.parent, h.child], ?_⟩
  constructor
  · rw [show (Urdf.flipLinks j).name = j.name from rfl, ← h.name]
    simp only [Node.name, Node.getStr, Node.get_congr (e "<xmlattr>" (by decide) (by decide))]
  · simp only [Node.parentLink, Node.getStr_put_part _ _ hpc, Node.getStr_put]; rfl
  · simp only [Node.childLink, Node.getStr_put]; rfl
  · rw [show (Urdf.flipLinks j).type = j.type from rfl, ← h.type]
    simp only [Node.type, Node.getStr, Node.get_congr (e "<xmlattr>" (by decide) (by decide))]
  · rw [show (Urdf.flipLinks j).origin = j.origin from rfl, ← h.origin]
    simp only [Node.origin, e "origin" (by decide) (by decide)]
  · rw [show (Urdf.flipLinks j).axis = j.axis from rfl, ← h.axis]
    simp only [Node.axis, Node.getVec, Node.get_congr (e "axis" (by decide) (by decide))]
  · rw [show (Urdf.flipLinks j).mimic = j.mimic from rfl, ← h.mimic]
    simp only [Node.mimic, e "mimic" (by decide) (by decide)]

theorem IsJoint.congr_axis {n n' : Node} {j : UJoint} (h : IsJoint n j)
    (e : ∀ k, k ≠ "axis" → n'.find k = n.find k) : IsJoint n' { j with axis := n'.axis } where
  name := by
    rw [← h.name]; simp only [Node.name, Node.getStr, Node.get_congr (e "<xmlattr>" (by decide))]
  parent := by
    rw [← h.parent]; simp only [Node.parentLink, Node.getStr, Node.get_congr (e "parent" (by decide))]
  child := by
    rw [← h.child]; simp only [Node.childLink, Node.getStr, Node.get_congr (e "child" (by decide))]
  type := by
    rw [← h.type]; simp only [Node.type, Node.getStr, Node.get_congr (e "<xmlattr>" (by decide))]
  origin := by rw [← h.origin]; simp only [Node.origin, e "origin" (by decide)]
  axis := rfl
  mimic := by rw [← h.mimic]; simp only [Node.mimic, e "mimic" (by decide)]

theorem axis_erase (n : Node) : (n.erase "axis").axis = none := by
  simp [Node.axis, Node.getVec, Node.get]

theorem flipAxis_sim [Printer] {n : Node} {j : UJoint} (h : IsJoint n j) :
    (∃ n' j', flipAxis n = .ok n' ∧ Urdf.flipAxis j = .ok j' ∧ IsJoint n' j' ∧ j'.name = j.name ∧
      j'.parent = j.parent ∧ j'.child = j.child) ∨
    (flipAxis n = .throws ∧ Urdf.flipAxis j = .throws) := by
  unfold flipAxis Urdf.flipAxis
  rw [h.type, h.axis]
  have h1 : IsJoint (n.erase "axis") { j with axis := none } := by
    have := h.congr_axis (n' := n.erase "axis") fun k hk => Node.find_erase_ne n hk
    rwa [axis_erase] at this
  have h2 : ∀ a : Array3d, IsJoint (n.put ["axis", "<xmlattr>", "xyz"] (.ofVec a))
      { j with axis := some a } := by
    intro a
    have := h.congr_axis (n' := n.put ["axis", "<xmlattr>", "xyz"] (.ofVec a))
      fun k hk => Node.find_put_ne _ _ _ hk
    rwa [show (n.put ["axis", "<xmlattr>", "xyz"] (.ofVec a)).axis = some a by
      simp [Node.axis, Text.ofVec]] at this
  have h3 : ∀ new : Array3d,
      (∃ n' j', (if new 0 = 1 ∧ new 1 = 0 ∧ new 2 = 0 then Res.ok (n.erase "axis")
          else Res.ok (n.put ["axis", "<xmlattr>", "xyz"] (.ofVec new))) = Res.ok n' ∧
        (if new 0 = 1 ∧ new 1 = 0 ∧ new 2 = 0 then Res.ok { j with axis := none }
          else Res.ok { j with axis := some new }) = Res.ok j' ∧
        IsJoint n' j' ∧ j'.name = j.name ∧ j'.parent = j.parent ∧ j'.child = j.child) := by
    intro new
    by_cases hc : new 0 = 1 ∧ new 1 = 0 ∧ new 2 = 0
    · rw [if_pos hc, if_pos hc]
      exact ⟨_, _, rfl, rfl, h1, rfl, rfl, rfl⟩
    · rw [if_neg hc, if_neg hc]
      exact ⟨_, _, rfl, rfl, h2 new, rfl, rfl, rfl⟩
  cases ht : j.type with
  | none => right; exact ⟨rfl, rfl⟩
  | some ty =>
    left
    simp only [ht] at h3
    cases ty with
    | revolute => exact h3 ![-(j.axis.getD ![1, 0, 0]) 0, -(j.axis.getD ![1, 0, 0]) 1, -(j.axis.getD ![1, 0, 0]) 2]
    | continuous => exact h3 ![-(j.axis.getD ![1, 0, 0]) 0, -(j.axis.getD ![1, 0, 0]) 1, -(j.axis.getD ![1, 0, 0]) 2]
    | prismatic => exact h3 ![-(j.axis.getD ![1, 0, 0]) 0, -(j.axis.getD ![1, 0, 0]) 1, -(j.axis.getD ![1, 0, 0]) 2]
    | planar => exact h3 ![-(j.axis.getD ![1, 0, 0]) 0, -(j.axis.getD ![1, 0, 0]) 1, -(j.axis.getD ![1, 0, 0]) 2]
    | fixed => exact ⟨_, _, rfl, rfl, h, rfl, rfl, rfl⟩
    | floating => exact ⟨_, _, rfl, rfl, h, rfl, rfl, rfl⟩

theorem putType_isJoint {n : Node} {j : UJoint} (h : IsJoint n j) (s : String) :
    IsJoint ((n.put ["<xmlattr>", "type"] (.ofStr s)).erase "axis")
      { j with type := Node.typeOfString s, axis := none } := by
  have e : ∀ k, k ≠ "<xmlattr>" → k ≠ "axis" →
      ((n.put ["<xmlattr>", "type"] (.ofStr s)).erase "axis").find k = n.find k := by
    intro k h1 h2
    rw [Node.find_erase_ne _ h2, Node.find_put_ne _ _ _ h1]
  have e' : ((n.put ["<xmlattr>", "type"] (.ofStr s)).erase "axis").find "<xmlattr>" =
      (n.put ["<xmlattr>", "type"] (.ofStr s)).find "<xmlattr>" :=
    Node.find_erase_ne _ (by decide)
  have hp : Node.Part ["<xmlattr>", "type"] ["<xmlattr>", "name"] := by simp [Node.Part]
  constructor
  · dsimp only
    rw [← h.name]
    simp only [Node.name, Node.getStr, Node.get_congr e', Node.get_put_part _ _ hp]
  · dsimp only
    rw [← h.parent]
    simp only [Node.parentLink, Node.getStr, Node.get_congr (e "parent" (by decide) (by decide))]
  · dsimp only
    rw [← h.child]
    simp only [Node.childLink, Node.getStr, Node.get_congr (e "child" (by decide) (by decide))]
  · have := Node.getStr_put ["<xmlattr>", "type"] (.ofStr s) n
    dsimp only
    simp only [Node.type, Node.getStr, Node.get_congr e'] at this ⊢
    rw [this]; rfl
  · dsimp only
    rw [← h.origin]
    simp only [Node.origin, e "origin" (by decide) (by decide)]
  · exact axis_erase _
  · dsimp only
    rw [← h.mimic]
    simp only [Node.mimic, e "mimic" (by decide) (by decide)]

theorem editJoint_congr {t : Tree} {j : UJoint} (hnd : (t.joints.map UJoint.name).Nodup)
    (hj : j ∈ t.joints) (f g : UJoint → UJoint) (h : f j = g j) :
    t.editJoint j.name f = t.editJoint j.name g := by
  unfold Tree.editJoint
  congr 1
  refine List.map_congr_left fun k hk => ?_
  split_ifs with hn
  · have : k = j := by
      have e1 := find_name hnd hk
      have e2 := find_name hnd hj
      rw [hn] at e1
      exact Option.some.inj (e1.symm.trans e2)
    rw [this, h]
  · rfl

theorem makeJointFixed_sim {x : XTree} (h : InStep x) (name : String) :
    (x.makeJointFixed name).1 = ((view x).makeJointFixed name).1 ∧
    view (x.makeJointFixed name).2 = ((view x).makeJointFixed name).2 ∧
    InStep (x.makeJointFixed name).2 := by
  unfold XTree.makeJointFixed Tree.makeJointFixed
  rcases h.joint_cases name with ⟨-, h1, h2⟩ | ⟨n, j, -, h1, h2, h3, rfl, h5, h6⟩
  · rw [h1, h2]; exact ⟨rfl, rfl, h⟩
  · rw [h1, h6]
    have hk := putType_isJoint h3 "fixed"
    obtain ⟨e1, e2⟩ := view_setJoint h hk
    exact ⟨rfl, e2.trans (editJoint_congr h.view_nodup h5 _ _ rfl), e1⟩

theorem makeJointFloating_sim {x : XTree} (h : InStep x) (name : String) :
    (x.makeJointFloating name).1 = ((view x).makeJointFloating name).1 ∧
    view (x.makeJointFloating name).2 = ((view x).makeJointFloating name).2 ∧
    InStep (x.makeJointFloating name).2 := by
  unfold XTree.makeJointFloating Tree.makeJointFloating
  rcases h.joint_cases name with ⟨-, h1, h2⟩ | ⟨n, j, -, h1, h2, h3, rfl, h5, h6⟩
  · rw [h1, h2]; exact ⟨rfl, rfl, h⟩
  · rw [h1, h6]
    have hk := putType_isJoint h3 "floating"
    obtain ⟨e1, e2⟩ := view_setJoint h hk
    exact ⟨rfl, e2.trans (editJoint_congr h.view_nodup h5 _ _ rfl), e1⟩

/-! ### The index -/

theorem insertUpper_map (key : String → String) (L : List UJoint) (j : UJoint)
    (h : ∀ k ∈ L, key k.name = k.parent) (hj : key j.name = j.parent) :
    insertUpper key (L.map UJoint.name) j.name = (Urdf.insertUpper L j).map UJoint.name := by
  unfold insertUpper Urdf.insertUpper
  rw [hj]
  have e1 : ∀ L : List UJoint, (∀ k ∈ L, key k.name = k.parent) →
      (L.map UJoint.name).takeWhile (fun x => decide (key x ≤ j.parent)) =
        (L.takeWhile fun x => decide (x.parent ≤ j.parent)).map UJoint.name ∧
      (L.map UJoint.name).dropWhile (fun x => decide (key x ≤ j.parent)) =
        (L.dropWhile fun x => decide (x.parent ≤ j.parent)).map UJoint.name := by
    intro L hL
    induction L with
    | nil => exact ⟨rfl, rfl⟩
    | cons a L ih =>
      obtain ⟨i1, i2⟩ := ih fun k hk => hL k (by simp [hk])
      have ha := hL a (by simp)
      simp only [List.map_cons, List.takeWhile_cons, List.dropWhile_cons, ha]
      by_cases hc : a.parent ≤ j.parent
      · simp [hc, i1, i2]
      · simp [hc]
  obtain ⟨e1, e2⟩ := e1 L h
  rw [e1, e2]
  simp

theorem replaceInIndex_map (key : String → String) (pre post : List UJoint) (j : UJoint)
    (h : ∀ k ∈ pre ++ post, key k.name = k.parent) (hj : key j.name = j.parent) :
    replaceInIndex key (pre.map UJoint.name) (post.map UJoint.name) j.name =
      (Urdf.replaceInIndex pre post j).map UJoint.name := by
  unfold replaceInIndex Urdf.replaceInIndex
  have e1 : (∀ p ∈ (pre.map UJoint.name).getLast?, key p ≤ key j.name) ↔
      ∀ p ∈ pre.getLast?, p.parent ≤ j.parent := by
    rw [List.getLast?_map, hj]
    cases hp : pre.getLast? with
    | none => simp
    | some p =>
      have := h p (List.mem_append_left _ (List.mem_of_mem_getLast? hp))
      simp [this]
  have e2 : (∀ q ∈ (post.map UJoint.name).head?, key j.name ≤ key q) ↔
      ∀ q ∈ post.head?, j.parent ≤ q.parent := by
    rw [List.head?_map, hj]
    cases hp : post.head? with
    | none => simp
    | some p =>
      have := h p (List.mem_append_right _ (List.mem_of_mem_head? hp))
      simp [this]
  by_cases hc : (∀ p ∈ pre.getLast?, p.parent ≤ j.parent) ∧ ∀ q ∈ post.head?, j.parent ≤ q.parent
  · rw [if_pos hc, if_pos ⟨e1.2 hc.1, e2.2 hc.2⟩]
    simp
  · rw [if_neg hc, if_neg fun h => hc ⟨e1.1 h.1, e2.1 h.2⟩]
    rw [← List.map_append]
    exact insertUpper_map key _ j h hj

theorem insertUpper_perm (L : List UJoint) (j : UJoint) : (Urdf.insertUpper L j).Perm (j :: L) := by
  unfold Urdf.insertUpper
  refine List.perm_middle.trans ?_
  rw [List.takeWhile_append_dropWhile]

theorem replaceInIndex_perm (pre post : List UJoint) (j : UJoint) :
    (Urdf.replaceInIndex pre post j).Perm (pre ++ j :: post) := by
  unfold Urdf.replaceInIndex
  split_ifs
  · exact List.Perm.refl _
  · exact (insertUpper_perm _ _).trans List.perm_middle.symm

theorem filterMap_find {J L : List UJoint} (h : ∀ k ∈ L, J.find? (fun j => j.name = k.name) = some k) :
    ((L.map UJoint.name).filterMap fun name => J.find? fun j => j.name = name) = L := by
  induction L with
  | nil => rfl
  | cons a L ih =>
    rw [List.map_cons, List.filterMap_cons, h a (by simp)]
    simp only
    rw [ih fun k hk => h k (by simp [hk])]

theorem span_names (L : List UJoint) (name : String) :
    (L.map UJoint.name).span (fun j => decide (j ≠ name)) =
      (((L.span fun j => decide (j.name ≠ name)).1).map UJoint.name,
        ((L.span fun j => decide (j.name ≠ name)).2).map UJoint.name) := by
  simp only [List.span_eq_takeWhile_dropWhile, List.takeWhile_map, List.dropWhile_map]
  rfl

theorem flipInIndex_sim [Printer] {x : XTree} (h : InStep x) (name : String) :
    (x.flipInIndex name).1 = ((view x).flipInIndex name).1 ∧
    view (x.flipInIndex name).2 = ((view x).flipInIndex name).2 ∧ InStep (x.flipInIndex name).2 := by
  unfold XTree.flipInIndex Tree.flipInIndex
  have hsp := span_names (view x).joints name
  rw [h.view_names] at hsp
  rw [hsp]
  rcases hs : (view x).joints.span (fun j => decide (j.name ≠ name)) with ⟨pre, post⟩
  have happ : (view x).joints = pre ++ post := by
    have := List.takeWhile_append_dropWhile (p := fun j : UJoint => decide (j.name ≠ name))
      (l := (view x).joints)
    rw [List.span_eq_takeWhile_dropWhile] at hs
    obtain ⟨rfl, rfl⟩ := Prod.mk.inj hs
    exact this.symm
  rw [hs]
  cases post with
  | nil =>
    cases (x.joint name).bind fun n => (flipLinks n).map (n, ·) with
    | none => exact ⟨rfl, rfl, h⟩
    | some o => exact ⟨rfl, rfl, h⟩
  | cons j post =>
    have hjn : j.name = name := by
      rw [List.span_eq_takeWhile_dropWhile] at hs
      have e := (Prod.mk.inj hs).2
      have := List.head?_dropWhile_not (fun j : UJoint => decide (j.name ≠ name)) (view x).joints
      rw [e] at this
      simpa using this
    have hjm : j ∈ (view x).joints := by rw [happ]; simp
    obtain ⟨n, h1, h2, h3⟩ := h.joint_of_mem hjm
    obtain ⟨n1, f1, f2⟩ := flipLinks_isJoint h3
    rw [hjn] at h1 h2
    simp only [h1, Option.bind_some, f1, Option.map_some, List.map_cons]
    have hmem : ∀ k ∈ pre ++ post, k ∈ (view x).joints := by
      intro k hk
      rw [happ]
      rcases List.mem_append.1 hk with hk | hk
      · simp [hk]
      · simp [hk]
    have hne : ∀ k ∈ pre ++ post, k.name ≠ name := by
      intro k hk e
      have hnd := h.view_nodup
      rw [happ, List.map_append, List.map_cons, List.nodup_middle, List.nodup_cons] at hnd
      apply hnd.1
      rw [hjn, ← e, ← List.map_append]
      exact List.mem_map_of_mem hk
    have hch : n1.childLink ∈ (pre.map UJoint.name ++ post.map UJoint.name).map
        (fun j => (x.joint j).bind Node.childLink) ↔
        (Urdf.flipLinks j).child ∈ (pre ++ post).map UJoint.child := by
      rw [f2.child, ← List.map_append, List.map_map]
      have : (pre ++ post).map ((fun j => (x.joint j).bind Node.childLink) ∘ UJoint.name) =
          ((pre ++ post).map UJoint.child).map some := by
        rw [List.map_map]
        refine List.map_congr_left fun k hk => ?_
        obtain ⟨m, g1, -, g2⟩ := h.joint_of_mem (hmem k hk)
        simp [g1, g2.child]
      rw [this]
      simp
    by_cases hc : (Urdf.flipLinks j).child ∈ (pre ++ post).map UJoint.child
    · rw [if_pos hc, if_pos (hch.2 hc)]
      exact ⟨rfl, rfl, h⟩
    rw [if_neg hc, if_neg fun e => hc (hch.1 e)]
    have hn1 : (Urdf.flipLinks j).name = name := hjn
    obtain ⟨s1, s2, s3⟩ := setEl_joint h.doc f2 rfl
    obtain ⟨v1, v2⟩ := view_setJoint h f2
    rw [hn1] at s1 s2 s3 v1 v2
    have hnfind : findEl "joint" name x.doc ≠ none := by rw [h2]; simp
    have hself : findEl "joint" name (setEl "joint" name n1 x.doc) = some n1 :=
      findEl_setEl _ _ _ _ (by rw [f2.name, hn1]) hnfind
    -- the keys
    have hkey : ∀ k ∈ pre ++ post, parentKey (setEl "joint" name n1 x.doc) k.name = k.parent := by
      intro k hk
      obtain ⟨m, -, g1, g2⟩ := h.joint_of_mem (hmem k hk)
      unfold parentKey
      rw [findEl_setEl_ne _ _ _ _ _ _ (by rw [f2.name, hn1]) (Or.inr (hne k hk)), g1]
      simp [g2.parent]
    have hkeyj : parentKey (setEl "joint" name n1 x.doc) name = (Urdf.flipLinks j).parent := by
      unfold parentKey
      rw [hself]
      simp [f2.parent]
    have hroot : n1.parentLink.getD "" = j.child := by rw [f2.parent]; rfl
    rw [hroot]
    -- the state after the edition of the joint, whatever the axis
    have fin : ∀ (doc2 : Nodes) (j' : UJoint), Indexable doc2 → linksOf doc2 = linksOf x.doc →
        jointsOf doc2 = ((jointsOf x.doc).map fun k => if k.name = name then j' else k) →
        j'.name = name → j'.parent = (Urdf.flipLinks j).parent →
        InStep ⟨doc2, replaceInIndex (parentKey (setEl "joint" name n1 x.doc))
          (pre.map UJoint.name) (post.map UJoint.name) name, j.child⟩ ∧
        view ⟨doc2, replaceInIndex (parentKey (setEl "joint" name n1 x.doc))
          (pre.map UJoint.name) (post.map UJoint.name) name, j.child⟩ =
          ⟨(view x).links, Urdf.replaceInIndex pre post j', j.child⟩ := by
      intro doc2 j' d1 d2 d3 d4 d5
      have hidx := replaceInIndex_map (parentKey (setEl "joint" name n1 x.doc)) pre post j' hkey
        (by rw [d4, hkeyj, d5])
      rw [d4] at hidx
      rw [hidx]
      have hp := replaceInIndex_perm pre post j'
      have hnames : (jointsOf doc2).map UJoint.name = (jointsOf x.doc).map UJoint.name := by
        rw [d3, List.map_map]
        refine List.map_congr_left fun k _ => ?_
        simp only [Function.comp]
        split_ifs with hk
        · rw [d4, hk]
        · rfl
      have hmem2 : ∀ k ∈ Urdf.replaceInIndex pre post j', k ∈ jointsOf doc2 := by
        intro k hk
        have hk' := hp.mem_iff.1 hk
        rw [d3, List.mem_map]
        rcases List.mem_append.1 hk' with hk' | hk'
        · exact ⟨k, (h.view_mem k).1 (hmem k (by simp [hk'])), if_neg (hne k (by simp [hk']))⟩
        · rcases List.mem_cons.1 hk' with rfl | hk'
          · exact ⟨j, (h.view_mem j).1 hjm, if_pos hjn⟩
          · exact ⟨k, (h.view_mem k).1 (hmem k (by simp [hk'])), if_neg (hne k (by simp [hk']))⟩
      refine ⟨⟨d1, ?_⟩, ?_⟩
      · simp only [hnames]
        refine (hp.map _).trans (List.Perm.trans ?_ h.index)
        rw [← h.view_names, happ]
        simp [hjn, d4]
      · simp only [view, d2]
        congr 1
        exact filterMap_find fun k hk => find_name d1.joints_nodup (hmem2 k hk)
    rcases flipAxis_sim f2 with ⟨n2, j2, a1, a2, a3, a4, a5, a6⟩ | ⟨a1, a2⟩
    · rw [a1, a2]
      dsimp only
      have hj2 : j2.name = name := a4.trans hn1
      obtain ⟨b1, b2, b3⟩ := setEl_joint s1 a3 hj2
      obtain ⟨c1, c2⟩ := fin _ j2 b1 (b2.trans s2) (by
        rw [b3, s3, List.map_map]
        refine List.map_congr_left fun k _ => ?_
        simp only [Function.comp]
        by_cases hk : k.name = name
        · rw [if_pos hk, if_pos hk, if_pos hn1]
        · rw [if_neg hk, if_neg hk]) hj2 a5
      exact ⟨rfl, c2, c1⟩
    · rw [a1, a2]
      dsimp only
      obtain ⟨c1, c2⟩ := fin _ (Urdf.flipLinks j) s1 s2 s3 hn1 rfl
      exact ⟨rfl, c2, c1⟩

/-! ### `define_as_root_link` -/

theorem flipRoot_sim [Printer] {x : XTree} (h : InStep x) (name : String) (b : Bool) :
    (x.flipRootLinkJoint name b).1 = ((view x).flipRootLinkJoint name b).1 ∧
    view (x.flipRootLinkJoint name b).2 = ((view x).flipRootLinkJoint name b).2 ∧
    InStep (x.flipRootLinkJoint name b).2 := by
  unfold XTree.flipRootLinkJoint Tree.flipRootLinkJoint
  rcases h.joint_cases name with ⟨-, h1, h2⟩ | ⟨n, j, -, h1, h2, h3, h4, h5, h6⟩
  · rw [h1, h2]; exact ⟨rfl, rfl, h⟩
  · rw [h1, h6]
    dsimp only
    have hroot : (view x).root = x.root := rfl
    rw [h3.parent, hroot]
    by_cases hp : j.parent ≠ x.root
    · rw [if_pos hp, if_pos (by simpa using hp)]
      exact ⟨rfl, rfl, h⟩
    · rw [if_neg hp, if_neg (by simpa using hp)]
      have ht : (x.transportToJoint name n b).1 = ((view x).transportToJoint j b).1 ∧
          view (x.transportToJoint name n b).2 = ((view x).transportToJoint j b).2 ∧
          InStep (x.transportToJoint name n b).2 := by
        unfold XTree.transportToJoint Tree.transportToJoint
        rw [h3.origin]
        cases j.origin with
        | none => exact ⟨rfl, rfl, h⟩
        | some e =>
          dsimp only
          cases UPose.fromElem e with
          | throws => exact ⟨rfl, rfl, h⟩
          | ub => exact ⟨rfl, rfl, h⟩
          | ok pose =>
            dsimp only
            obtain ⟨t1, t2, t3, -⟩ := transport_sim h pose fun k => b && decide (k = name)
            rw [h4]
            exact ⟨t1, t2, t3⟩
      obtain ⟨t1, t2, t3⟩ := ht
      rcases hX : x.transportToJoint name n b with ⟨r, x1⟩
      rcases hT : (view x).transportToJoint j b with ⟨r', t1'⟩
      rw [hX, hT] at t1 t2
      rw [hX] at t3
      simp only at t1 t2 t3
      subst t1 t2
      cases r with
      | throws => exact ⟨rfl, rfl, t3⟩
      | ub => exact ⟨rfl, rfl, t3⟩
      | ok u => exact flipInIndex_sim t3 name

theorem pathToRoot_sim {x : XTree} (h : InStep x) (n : ℕ) (cur : String) :
    x.pathToRoot n cur = (view x).pathToRoot n cur := by
  induction n generalizing cur with
  | zero => rfl
  | succ n ih =>
    unfold XTree.pathToRoot Tree.pathToRoot
    have hroot : (view x).root = x.root := rfl
    rw [hroot]
    by_cases hc : cur = x.root
    · rw [if_pos hc, if_pos hc]
    · rw [if_neg hc, if_neg hc]
      have hf : x.joints.find? (fun j => decide ((x.joint j).bind Node.childLink = some cur)) =
          ((view x).joints.find? fun j => decide (j.child = cur)).map UJoint.name := by
        conv_lhs => rw [← h.view_names]
        rw [List.find?_map]
        congr 1
        have : ∀ L : List UJoint, (∀ k ∈ L, k ∈ (view x).joints) →
            L.find? ((fun j => decide ((x.joint j).bind Node.childLink = some cur)) ∘ UJoint.name) =
              L.find? fun j => decide (j.child = cur) := by
          intro L hL
          induction L with
          | nil => rfl
          | cons a L ihL =>
            obtain ⟨m, g1, -, g2⟩ := h.joint_of_mem (hL a (by simp))
            have := ihL fun k hk => hL k (by simp [hk])
            simp only [List.find?_cons, this]
            simp [g1, g2.child]
        exact this _ fun _ h => h
      rw [hf]
      cases hk : (view x).joints.find? fun j => decide (j.child = cur) with
      | none => rfl
      | some j =>
        obtain ⟨m, g1, -, g2⟩ := h.joint_of_mem (List.mem_of_find?_eq_some hk)
        simp only [Option.map_some, g1, Option.bind_some, g2.type, g2.parent, ih]
        cases j.type with
        | none => rfl
        | some ty => cases ty <;> rfl

theorem flipAll_sim [Printer] (names : List String) {x : XTree} (h : InStep x) :
    (XTree.flipAll names x).1 = (Tree.flipAll names (view x)).1 ∧
    view (XTree.flipAll names x).2 = (Tree.flipAll names (view x)).2 ∧
    InStep (XTree.flipAll names x).2 := by
  induction names generalizing x with
  | nil => exact ⟨rfl, rfl, h⟩
  | cons name rest ih =>
    unfold XTree.flipAll Tree.flipAll
    obtain ⟨t1, t2, t3⟩ := flipRoot_sim h name (rest ≠ [] : Bool)
    rcases hX : x.flipRootLinkJoint name (rest ≠ [] : Bool) with ⟨r, x1⟩
    rcases hT : (view x).flipRootLinkJoint name (rest ≠ [] : Bool) with ⟨r', t1'⟩
    rw [hX, hT] at t1 t2
    rw [hX] at t3
    simp only at t1 t2 t3
    subst t1 t2
    cases r with
    | throws => exact ⟨rfl, rfl, t3⟩
    | ub => exact ⟨rfl, rfl, t3⟩
    | ok u => exact ih t3

theorem defineAsRootLink_sim [Printer] {x : XTree} (h : InStep x) (n : ℕ) (link : String) :
    (x.defineAsRootLink n link = none ∧ (view x).defineAsRootLink n link = none) ∨
    ∃ r x', x.defineAsRootLink n link = some (r, x') ∧
      (view x).defineAsRootLink n link = some (r, view x') ∧ InStep x' := by
  unfold XTree.defineAsRootLink Tree.defineAsRootLink
  rw [pathToRoot_sim h]
  cases (view x).pathToRoot n link with
  | none => left; exact ⟨rfl, rfl⟩
  | some p =>
    right
    cases p with
    | throws => exact ⟨_, x, rfl, rfl, h⟩
    | ub => exact ⟨_, x, rfl, rfl, h⟩
    | ok path =>
      obtain ⟨f1, f2, f3⟩ := flipAll_sim path.reverse h
      refine ⟨_, _, rfl, ?_, f3⟩
      dsimp only
      rw [f1, f2]

end AlMath.UrdfXml
