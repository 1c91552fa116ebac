import Verif.Lemmas.UrdfXmlSession

/-!
# C71: the index stays in step with the document, and the edited document can be loaded again

almath/scenegraph/urdf.h:108-124: the class "acts as an index" for the XML document; "some RobotTree
functions enable the safe modification or removal of joints and links".

`view` reads the tree of Model/Urdf.lean in the document through the index. Every function on documents
does to the view what the function of Model/Urdf.lean does to the tree, so that the theorems of C47 to
C51 hold for documents. Then, after any sequence of calls, the index has the joints of the document, and
loading the edited document gives the same robot, unless a joint mimics one that was removed.
-/

namespace AlMath.UrdfXml

open AlMath.Urdf AlMath.Spec AlMath.Spec.UrdfXml

/-! ### Every function does to the view what Model/Urdf.lean says -/

/-- Loading. -/
theorem C71_load (doc : Nodes) :
    (load doc).map view = Urdf.load (doc.map readElem) ∧
    ∀ x, load doc = .ok x → x.doc = doc ∧ InStep x ∧ FileOrder x := by
  constructor
  · cases h : load doc with
    | ok x => rw [Res.map_ok, (load_view h).2.2]
    | throws =>
      unfold load at h
      cases h' : Urdf.load (doc.map readElem) with
      | ok t => rw [h', Res.map_ok] at h; simp at h
      | throws => rfl
      | ub => rw [h', Res.map_ub] at h; simp at h
    | ub =>
      unfold load at h
      cases h' : Urdf.load (doc.map readElem) with
      | ok t => rw [h', Res.map_ok] at h; simp at h
      | throws => rw [h', Res.map_throws] at h; simp at h
      | ub => rfl
  · intro x h
    obtain ⟨h1, h2, h3⟩ := load_view h
    refine ⟨h1, h2, fun link => ?_⟩
    rw [h2.childJoints_eq, (C45_consistent _ _ h3).2.2.2 link, h1]
    rfl

/-- Removals. -/
theorem C71_removals (x : XTree) (h : InStep x) (k : ℕ) (name : String) (pred : Node → Bool) :
    (x.rmRootJoint.1, view x.rmRootJoint.2) = (view x).rmRootJoint ∧
    ((x.rmLeafJoint name).1, view (x.rmLeafJoint name).2) = (view x).rmLeafJoint name ∧
    (removeSubTreeIfJoint k pred x).map (fun p => (p.1, view p.2)) =
      Urdf.removeSubTreeIfJoint k (fun j => (x.joint j.name).elim false pred) (view x) := by
  obtain ⟨a1, a2, -⟩ := rmRootJoint_sim h
  obtain ⟨b1, b2, -⟩ := rmLeafJoint_sim h name
  refine ⟨Prod.ext a1 a2, Prod.ext b1 b2, ?_⟩
  rcases removeSubTree_sim h pred k with ⟨c1, c2⟩ | ⟨r, x', c1, c2, -⟩
  · rw [c1]; exact c2.symm
  · rw [c1]; exact c2.symm

/-- Changes of frame and of root link. -/
theorem C71_frames [Printer] (x : XTree) (h : InStep x) (pose : UPose) (noprune : String → Bool) (k : ℕ)
    (link : String) :
    ((x.transportRootLinkFrame pose noprune).1, view (x.transportRootLinkFrame pose noprune).2) =
      (view x).transportRootLinkFrame pose (fun j => noprune j.name) ∧
    (x.defineAsRootLink k link).map (fun p => (p.1, view p.2)) = (view x).defineAsRootLink k link := by
  obtain ⟨a1, a2, -⟩ := transport_sim h pose noprune
  refine ⟨Prod.ext a1 a2, ?_⟩
  rcases defineAsRootLink_sim h k link with ⟨c1, c2⟩ | ⟨r, x', c1, c2, -⟩
  · rw [c1]; exact c2.symm
  · rw [c1]; exact c2.symm

/-- Changes of type. -/
theorem C71_types (x : XTree) (h : InStep x) (name : String) (k : ℕ) :
    ((x.makeJointFixed name).1, view (x.makeJointFixed name).2) = (view x).makeJointFixed name ∧
    ((x.makeJointFloating name).1, view (x.makeJointFloating name).2) =
      (view x).makeJointFloating name ∧
    (makeContinuousJointsFixed k x).map (fun p => (p.1, view p.2.1, p.2.2)) =
      Urdf.makeContinuousJointsFixed k (view x) := by
  obtain ⟨a1, a2, -⟩ := makeJointFixed_sim h name
  obtain ⟨b1, b2, -⟩ := makeJointFloating_sim h name
  refine ⟨Prod.ext a1 a2, Prod.ext b1 b2, ?_⟩
  rcases continuous_sim h k with ⟨c1, c2⟩ | ⟨r, s, a, c1, c2, -, c3, c4⟩
  · rw [c1]; exact c2.symm
  · rw [c1, c2]
    simp only [Option.map_some, c3, c4]

/-- Changes of masses, if the numbers of the inertials can be read. -/
theorem C71_masses [Printer] (x : XTree) (h : InStep x)
    (hd : ∀ c ∈ x.doc, c.1 = "link" → ∀ i ∈ c.2.all "inertial", i.inertialData ≠ none) (name : String)
    (k : ℕ) :
    ((x.squashJointMass name).1, view (x.squashJointMass name).2) = (view x).squashJointMass name ∧
    (squashFixedJointsMass k x).map (fun p => (p.1, view p.2.1)) =
      Urdf.squashFixedJointsMass k (view x) ∧
    (makeMasslessJointsFixed k x).map (fun p => (p.1, view p.2.1, p.2.2)) =
      Urdf.makeMasslessJointsFixed k (view x) := by
  have hd' : DataOk x.doc := hd
  obtain ⟨a1, a2, -⟩ := squashJointMass_sim h hd' name
  refine ⟨Prod.ext a1 a2, ?_, ?_⟩
  · rcases squashFixed_sim h hd' k with ⟨c1, c2⟩ | ⟨r, s, a, c1, c2, -, c3⟩
    · rw [c1]; exact c2.symm
    · rw [c1, c2]
      simp only [Option.map_some, c3]
  · rcases massless_sim h hd' k with ⟨c1, c2⟩ | ⟨r, s, a, c1, c2, -, c3, c4⟩
    · rw [c1]; exact c2.symm
    · rw [c1, c2]
      simp only [Option.map_some, c3, c4]

/-! ### Sequences of calls -/

theorem load_inv {doc : Nodes} {x : XTree} (h : load doc = .ok x) : Inv x := by
  obtain ⟨h1, h2, -⟩ := load_view h
  refine ⟨h2, load_consistent h, ?_⟩
  rw [h1]
  exact (load_mimicOk h).1

theorem call_inv [Printer] {x x' : XTree} (h : Inv x) (hc : Call x x') : Inv x' := by
  rcases hc with hc | ⟨k, link, r, hd, hr⟩ | hc
  · obtain ⟨h1, h2, h3⟩ := edition_keeps hc
    exact (keeps_inv h h1 h2 h3).1
  · exact (reroot_inv h hd hr).1
  · exact (removal_inv h hc).1

theorem session_inv [Printer] {doc : Nodes} {x : XTree} (h : Session doc x) : Inv x := by
  obtain ⟨x0, h0, h⟩ := h
  induction h with
  | refl => exact load_inv h0
  | tail _ hc ih => exact call_inv ih hc

/-- After any sequence of calls, the index has the joints of the document, each one once; names are
unique, joints have existing links, every link except the root is the child of exactly one joint. -/
theorem C71_session [Printer] (doc : Nodes) (x : XTree) (h : Session doc x) :
    InStep x ∧ Consistent' (view x) :=
  ⟨(session_inv h).step, (session_inv h).tree⟩

theorem inv_reload {x : XTree} (hi : Inv x) :
    (load x.doc ≠ .throws ↔
      ∀ j ∈ (view x).joints, ∀ s, j.mimic = some s → ∃ k ∈ (view x).joints, k.name = s) ∧
    (load x.doc ≠ .throws → ∃ x', load x.doc = .ok x' ∧ SameRobot (view x) (view x')) := by
  have hub : load x.doc ≠ .ub := by
    intro e
    have := (C71_load x.doc).1
    rw [e, Res.map_ub] at this
    exact load_ne_ub _ this.symm
  have key : (∀ j ∈ (view x).joints, ∀ s, j.mimic = some s → ∃ k ∈ (view x).joints, k.name = s) →
      ∃ x', load x.doc = .ok x' ∧ SameRobot (view x) (view x') := by
    intro hm
    obtain ⟨x', h1, h2, h3, h4⟩ := reload hi.step hi.tree ⟨hi.order, by
      simpa only [hi.step.view_mem] using hm⟩
    exact ⟨x', h1, h2, h3, h4⟩
  have key2 : load x.doc ≠ .throws →
      ∀ j ∈ (view x).joints, ∀ s, j.mimic = some s → ∃ k ∈ (view x).joints, k.name = s := by
    intro hn
    cases hl : load x.doc with
    | throws => exact absurd hl hn
    | ub => exact absurd hl hub
    | ok x' => simpa only [hi.step.view_mem] using (load_mimicOk hl).2
  refine ⟨⟨key2, fun hm => ?_⟩, fun hn => key (key2 hn)⟩
  obtain ⟨x', h1, -⟩ := key hm
  rw [h1]; simp

/-- After any sequence of calls, loading the document again is accepted exactly if all mimicked joints
are still there, and is refused with an exception otherwise; it gives the same robot. -/
theorem C71_reload [Printer] (doc : Nodes) (x : XTree) (h : Session doc x) :
    (load x.doc ≠ .throws ↔
      ∀ j ∈ (view x).joints, ∀ s, j.mimic = some s → ∃ k ∈ (view x).joints, k.name = s) ∧
    (load x.doc ≠ .throws → ∃ x', load x.doc = .ok x' ∧ SameRobot (view x) (view x')) :=
  inv_reload (session_inv h)

/-- If nothing was removed, loading the document again gives the same robot. -/
theorem C71_reload_edited [Printer] (doc : Nodes) (x0 x : XTree) (h0 : load doc = .ok x0)
    (h : Relation.ReflTransGen (fun a b => Edition a b ∨ Reroot a b) x0 x) :
    ∃ x', load x.doc = .ok x' ∧ SameRobot (view x) (view x') := by
  have hs : Session doc x := by
    refine ⟨x0, h0, ?_⟩
    clear h0
    induction h with
    | refl => exact .refl
    | tail _ hc ih =>
      refine ih.tail ?_
      rcases hc with hc | hc
      · exact Or.inl hc
      · exact Or.inr (Or.inl hc)
  have hm : MimicOk (jointsOf x.doc) := by
    clear hs
    have : Inv x ∧ MimicOk (jointsOf x.doc) := by
      induction h with
      | refl =>
        refine ⟨load_inv h0, ?_⟩
        rw [(load_view h0).1]
        exact load_mimicOk h0
      | tail _ hc ih =>
        rcases hc with hc | ⟨k, link, r, hd, hr⟩
        · obtain ⟨h1, h2, h3⟩ := edition_keeps hc
          obtain ⟨g1, g2, -⟩ := keeps_inv ih.1 h1 h2 h3
          exact ⟨g1, mimicOk_congr g2 ih.2⟩
        · obtain ⟨g1, g2, -⟩ := reroot_inv ih.1 hd hr
          exact ⟨g1, mimicOk_congr g2 ih.2⟩
    exact this.2
  have hi := session_inv hs
  obtain ⟨x', h1, h2, h3, h4⟩ := reload hi.step hi.tree hm
  exact ⟨x', h1, h2, h3, h4⟩

/-- After any sequence of calls, `define_as_root_link` makes the link the root, if it returns, and the
document loaded again has this root. -/
theorem C71_new_root [Printer] (doc : Nodes) (x x' : XTree) (h : Session doc x) (k : ℕ) (link : String)
    (hd : x.defineAsRootLink k link = some (.ok (), x')) :
    x'.root = link ∧ ∀ x'', load x'.doc = .ok x'' → x''.root = link := by
  obtain ⟨h1, -, h3⟩ := reroot_inv (session_inv h) hd (by simp)
  refine ⟨h3 rfl, fun x'' hl => ?_⟩
  obtain ⟨y, g1, g2, -, -⟩ := reload h1.step h1.tree ⟨h1.order, (load_mimicOk hl).2⟩
  rw [hl] at g1
  cases g1
  rw [g2, h3 rfl]

/-- As long as the root link is not changed, the joints attached to each link are in the order of the
document. -/
theorem C71_order [Printer] (doc : Nodes) (x0 x : XTree) (h0 : load doc = .ok x0)
    (h : Relation.ReflTransGen (fun a b => Edition a b ∨ Removal a b) x0 x) : FileOrder x := by
  have : Inv x ∧ FileOrder x := by
    induction h with
    | refl => exact ⟨load_inv h0, ((C71_load doc).2 _ h0).2.2⟩
    | tail _ hc ih =>
      rcases hc with hc | hc
      · obtain ⟨h1, h2, h3⟩ := edition_keeps hc
        obtain ⟨g1, -, g2⟩ := keeps_inv ih.1 h1 h2 h3
        exact ⟨g1, g2 ih.2⟩
      · obtain ⟨g1, g2⟩ := removal_inv ih.1 hc
        exact ⟨g1, g2 ih.2⟩
  exact this.2

/-! ### Counterexamples and examples -/

/-- The element of a fixed joint that mimics another one. Helper of the examples. Not in /repo:
specification. -/
def mimicEl (name parent child target : String) : String × Node :=
  ("joint", elem [attr "name" name, attr "type" "fixed"]
    [("parent", elem [attr "link" parent] []), ("child", elem [attr "link" child] []),
      ("mimic", elem [attr "joint" target] [])])

/-- A robot with a joint that mimics another one. Helper of the examples. Not in /repo:
specification. -/
def mimicDoc : Nodes :=
  [("link", elem [attr "name" "r"] []), ("link", elem [attr "name" "a"] []),
    ("link", elem [attr "name" "b"] []), jointEl "j" "revolute" "r" "a", mimicEl "k" "r" "b" "j"]

/-- `rm_leaf_joint` accepts to remove a joint that another one mimics; the document cannot be loaded any
more. -/
theorem C71_dangling_mimic [Printer] : ∃ x, Session mimicDoc x ∧ load x.doc = .throws := by
  refine ⟨((⟨mimicDoc, ["j", "k"], "r"⟩ : XTree).rmLeafJoint "j").2, ⟨⟨mimicDoc, ["j", "k"], "r"⟩, rfl, ?_⟩,
    rfl⟩
  refine Relation.ReflTransGen.single (Or.inr (Or.inr (Removal.leaf _ "j" ?_)))
  intro h
  cases h

/-- A robot with two fixed joints in a row. Helper of the examples. Not in /repo: specification. -/
def chainDoc : Nodes :=
  [("link", elem [attr "name" "r"] []), ("link", elem [attr "name" "c"] []),
    ("link", elem [attr "name" "d"] []), jointEl "j" "fixed" "r" "c", jointEl "k" "fixed" "c" "d"]

/-- After a change of root link, the joints attached to a link may be visited in another order than the
one of the document, although almath/scenegraph/urdf.h:253-254 says that siblings are visited in the
order of the file; the document loaded again has the order of the file. -/
theorem C71_sibling_order [Printer] : ∃ x x' x'', load chainDoc = .ok x ∧
    x.defineAsRootLink 2 "c" = some (.ok (), x') ∧ load x'.doc = .ok x'' ∧
    x'.childJoints "c" = ["k", "j"] ∧ ¬ FileOrder x' ∧ x''.childJoints "c" = ["j", "k"] := by
  refine ⟨⟨chainDoc, ["k", "j"], "r"⟩, _, _, rfl, rfl, rfl, rfl, ?_, rfl⟩
  intro h
  have h1 := h "c"
  have h2 : (["k", "j"] : List String) = ["j", "k"] := h1
  simp at h2

/-- A sequence of calls: the link `c` becomes the root, a joint becomes floating, another one is removed,
and a call throws. -/
example [Printer] : ∃ x, Session chainDoc x ∧ x.root = "c" ∧ x.joints = ["j"] ∧
    (x.rmLeafJoint "k").1 = .throws := by
  obtain ⟨y, h1, h2, h3, h4⟩ : ∃ y, (⟨chainDoc, ["k", "j"], "r"⟩ : XTree).defineAsRootLink 2 "c" =
      some (.ok (), y) ∧ (((y.makeJointFloating "j").2).rmLeafJoint "k").1 = .ok () ∧
      (((y.makeJointFloating "j").2).rmLeafJoint "k").2.root = "c" ∧
      (((y.makeJointFloating "j").2).rmLeafJoint "k").2.joints = ["j"] := ⟨_, rfl, rfl, rfl, rfl⟩
  refine ⟨(((y.makeJointFloating "j").2).rmLeafJoint "k").2,
    ⟨⟨chainDoc, ["k", "j"], "r"⟩, rfl, ((Relation.ReflTransGen.single (r := Call) ?_).tail
      (b := y) ?_).tail (b := (y.makeJointFloating "j").2) ?_⟩, h3, h4, ?_⟩
  · exact Or.inr (Or.inl (Reroot.mk _ _ 2 "c" _ h1 (by simp)))
  · exact Or.inl (Edition.floating _ "j")
  · exact Or.inr (Or.inr (Removal.leaf _ "k" (by rw [h2]; simp)))
  · generalize ((y.makeJointFloating "j").2.rmLeafJoint "k").2 = z at h4
    simp [XTree.rmLeafJoint, XTree.joint, h4]

/-- The numbers of the inertials of a document can be read. -/
example [Printer] (d : InertialData) (c : String × Node)
    (hc : c ∈ [("link", elem [attr "name" "r"] [("inertial", putData d Node.empty)])]) :
    c.1 = "link" → ∀ i ∈ c.2.all "inertial", i.inertialData ≠ none := by
  simp only [List.mem_singleton] at hc
  subst hc
  intro _ i hi
  have : i = putData d Node.empty := by simpa [Node.all, elem, Node.children] using hi
  rw [this]
  rw [inertialData_putData]
  simp

end AlMath.UrdfXml
