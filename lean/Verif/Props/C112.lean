import Verif.Model.UrdfLookup
import Verif.Props.C71

/-!
C112: the elements of a robot tree looked up by name, after any sequence of editions, including what the caller writes
through the returned references.
-/

namespace AlMath.UrdfXml

open AlMath.Urdf AlMath.Spec AlMath.Spec.UrdfXml

/-- The caller writes an element through a reference; they keep what the index relies on: the name of a link; the name,
links and mimicked joint of a joint. Not in /repo: specification. -/
inductive Write : XTree → XTree → Prop
  | link (x : XTree) (name : String) (n n' : Node) : x.linkAt name = .ok n → n'.name = n.name →
    Write x (x.writeLink name n').2
  | joint (x : XTree) (name : String) (n n' : Node) : x.jointAt name = .ok n → n'.name = n.name →
    n'.parentLink = n.parentLink → n'.childLink = n.childLink → n'.mimic = n.mimic → Write x (x.writeJoint name n').2

/-- The tree is obtained from the document by loading it, calling editions and writing through the references. Not in
/repo: specification. -/
def Used [Printer] (doc : Nodes) (x : XTree) : Prop :=
  ∃ x0, load doc = .ok x0 ∧ Relation.ReflTransGen (fun a b => Call a b ∨ Write a b) x0 x

theorem linkAt_ok {x : XTree} {name : String} {n : Node} : x.linkAt name = .ok n ↔ x.link name = some n := by
  unfold XTree.linkAt
  cases x.link name <;> simp

theorem linkAt_throws {x : XTree} {name : String} : x.linkAt name = .throws ↔ x.link name = none := by
  unfold XTree.linkAt
  cases x.link name <;> simp

theorem jointAt_ok {x : XTree} {name : String} {n : Node} : x.jointAt name = .ok n ↔ x.joint name = some n := by
  unfold XTree.jointAt
  cases x.joint name <;> simp

theorem jointAt_throws {x : XTree} {name : String} : x.jointAt name = .throws ↔ x.joint name = none := by
  unfold XTree.jointAt
  cases x.joint name <;> simp

theorem joint_findEl {x : XTree} {name : String} {n : Node} (h : x.joint name = some n) :
    name ∈ x.joints ∧ findEl "joint" name x.doc = some n := by
  unfold XTree.joint at h
  split_ifs at h with hm
  exact ⟨hm, h⟩

theorem findEl_mem {key name : String} {doc : Nodes} {n : Node} (h : findEl key name doc = some n) :
    (key, n) ∈ doc ∧ n.name = some name := by
  unfold findEl at h
  obtain ⟨c, hc, rfl⟩ := Option.map_eq_some_iff.1 h
  have h1 := List.find?_some hc
  simp only [decide_eq_true_eq] at h1
  rw [← h1.1]
  exact ⟨List.mem_of_find?_eq_some hc, h1.2⟩

theorem write_inv {x x' : XTree} (h : Inv x) (hw : Write x x') : Inv x' := by
  cases hw with
  | link name n n' h1 h2 =>
    have h1 := linkAt_ok.1 h1
    rw [XTree.writeLink, h1]
    refine (keeps_inv (x' := ⟨setEl "link" name n' x.doc, x.joints, x.root⟩) h (edited_setEl fun m hm => ?_) rfl rfl).1
    have : m = n := Option.some.inj (hm.symm.trans h1)
    subst this
    exact ⟨fun _ => h2, fun e => by simp at e⟩
  | joint name n n' h1 h2 h3 h4 h5 =>
    have h1 := jointAt_ok.1 h1
    rw [XTree.writeJoint, h1]
    refine (keeps_inv (x' := ⟨setEl "joint" name n' x.doc, x.joints, x.root⟩) h (edited_setEl fun m hm => ?_) rfl rfl).1
    have : m = n := Option.some.inj (hm.symm.trans (joint_findEl h1).2)
    subst this
    exact ⟨fun e => by simp at e, fun _ => ⟨h2, h3, h4, h5⟩⟩

theorem used_inv [Printer] {doc : Nodes} {x : XTree} (h : Used doc x) : Inv x := by
  obtain ⟨x0, h0, h⟩ := h
  induction h with
  | refl => exact load_inv h0
  | tail _ hc ih =>
    rcases hc with hc | hc
    · exact call_inv ih hc
    · exact write_inv ih hc

theorem Session.used [Printer] {doc : Nodes} {x : XTree} (h : Session doc x) : Used doc x := by
  obtain ⟨x0, h0, h⟩ := h
  exact ⟨x0, h0, Relation.ReflTransGen.mono (fun _ _ h => Or.inl h) _ _ h⟩

/-- The index stays in step with the document and the tree consistent, whatever is written through the references. -/
theorem C112_used [Printer] (doc : Nodes) (x : XTree) (h : Used doc x) : InStep x ∧ Consistent' (view x) :=
  ⟨(used_inv h).step, (used_inv h).tree⟩

/-- Loading the document again is accepted exactly if all mimicked joints are still there, and gives the same robot. -/
theorem C112_reload [Printer] (doc : Nodes) (x : XTree) (h : Used doc x) :
    (load x.doc ≠ .throws ↔
      ∀ j ∈ (view x).joints, ∀ s, j.mimic = some s → ∃ k ∈ (view x).joints, k.name = s) ∧
    (load x.doc ≠ .throws → ∃ x', load x.doc = .ok x' ∧ SameRobot (view x) (view x')) :=
  inv_reload (used_inv h)

theorem isJoint_mem {doc : Nodes} (h : ∀ c ∈ doc, Complete (readElem c)) {n : Node} (hn : ("joint", n) ∈ doc) :
    ∃ j ∈ jointsOf doc, IsJoint n j := by
  induction doc with
  | nil => simp at hn
  | cons c doc ih =>
    rw [jointsOf_cons]
    rcases List.mem_cons.1 hn with rfl | hn
    · rcases read_cases _ (h _ List.mem_cons_self) with ⟨e, -⟩ | ⟨-, j, h1, -, h3⟩ | ⟨-, e, -⟩
      · simp at e
      · exact ⟨j, by simp [h3], h1⟩
      · exact absurd rfl e
    · obtain ⟨j, h1, h2⟩ := ih (fun d hd => h d (List.mem_cons_of_mem _ hd)) hn
      exact ⟨j, List.mem_append_right _ h1, h2⟩

theorem isLink_mem {doc : Nodes} (h : ∀ c ∈ doc, Complete (readElem c)) {n : Node} (hn : ("link", n) ∈ doc) :
    ∃ l ∈ linksOf doc, IsLink n l := by
  induction doc with
  | nil => simp at hn
  | cons c doc ih =>
    rw [linksOf_cons]
    rcases List.mem_cons.1 hn with rfl | hn
    · rcases read_cases _ (h _ List.mem_cons_self) with ⟨-, j, h1, h3, -⟩ | ⟨e, -⟩ | ⟨e, -⟩
      · exact ⟨j, by simp [h3], h1⟩
      · simp at e
      · exact absurd rfl e
    · obtain ⟨j, h1, h2⟩ := ih (fun d hd => h d (List.mem_cons_of_mem _ hd)) hn
      exact ⟨j, List.mem_append_right _ h1, h2⟩

theorem findEl_joint_of_mem {doc : Nodes} (h : ∀ c ∈ doc, Complete (readElem c))
    (hu : ((jointsOf doc).map UJoint.name).Nodup) {name : String} {n : Node} (hn : ("joint", n) ∈ doc)
    (hnm : n.name = some name) : findEl "joint" name doc = some n := by
  induction doc with
  | nil => simp at hn
  | cons c doc ih =>
    have hd : ∀ d ∈ doc, Complete (readElem d) := fun d hd => h d (List.mem_cons_of_mem _ hd)
    rw [jointsOf_cons, List.map_append, List.nodup_append] at hu
    by_cases e : c.1 = "joint" ∧ c.2.name = some name
    · have : c.2 = n := by
        rcases List.mem_cons.1 hn with h1 | h1
        · rw [← h1]
        · obtain ⟨k, hk, hk'⟩ := isJoint_mem hd h1
          rcases read_cases c (h c List.mem_cons_self) with ⟨e', -⟩ | ⟨-, j, j1, -, j3⟩ | ⟨-, e', -⟩
          · rw [e.1] at e'
            simp at e'
          · refine absurd ?_ (hu.2.2 j.name (by simp [j3]) k.name (List.mem_map_of_mem hk))
            have a := j1.name.symm.trans e.2
            have b := hk'.name.symm.trans hnm
            exact (Option.some.inj a).trans (Option.some.inj b).symm
          · exact absurd e.1 e'
      unfold findEl
      rw [List.find?_cons_of_pos (by simpa using e), Option.map_some, this]
    · unfold findEl at ih ⊢
      rw [List.find?_cons_of_neg (by simpa using e)]
      refine ih hd hu.2.1 ?_
      rcases List.mem_cons.1 hn with rfl | h1
      · exact absurd ⟨rfl, hnm⟩ e
      · exact h1

theorem findEl_link_of_mem {doc : Nodes} (h : ∀ c ∈ doc, Complete (readElem c))
    (hu : ((linksOf doc).map ULink.name).Nodup) {name : String} {n : Node} (hn : ("link", n) ∈ doc)
    (hnm : n.name = some name) : findEl "link" name doc = some n := by
  induction doc with
  | nil => simp at hn
  | cons c doc ih =>
    have hd : ∀ d ∈ doc, Complete (readElem d) := fun d hd => h d (List.mem_cons_of_mem _ hd)
    rw [linksOf_cons, List.map_append, List.nodup_append] at hu
    by_cases e : c.1 = "link" ∧ c.2.name = some name
    · have : c.2 = n := by
        rcases List.mem_cons.1 hn with h1 | h1
        · rw [← h1]
        · obtain ⟨k, hk, hk'⟩ := isLink_mem hd h1
          rcases read_cases c (h c List.mem_cons_self) with ⟨-, j, j1, j3, -⟩ | ⟨e', -⟩ | ⟨e', -⟩
          · refine absurd ?_ (hu.2.2 j.name (by simp [j3]) k.name (List.mem_map_of_mem hk))
            have a := j1.name.symm.trans e.2
            have b := hk'.name.symm.trans hnm
            exact (Option.some.inj a).trans (Option.some.inj b).symm
          · rw [e.1] at e'
            simp at e'
          · exact absurd e.1 e'
      unfold findEl
      rw [List.find?_cons_of_pos (by simpa using e), Option.map_some, this]
    · unfold findEl at ih ⊢
      rw [List.find?_cons_of_neg (by simpa using e)]
      refine ih hd hu.2.1 ?_
      rcases List.mem_cons.1 hn with rfl | h1
      · exact absurd ⟨rfl, hnm⟩ e
      · exact h1

theorem joint_iff {x : XTree} (h : InStep x) (name : String) (n : Node) :
    x.joint name = some n ↔ ("joint", n) ∈ x.doc ∧ n.name = some name := by
  constructor
  · intro e
    exact findEl_mem (joint_findEl e).2
  · rintro ⟨h1, h2⟩
    obtain ⟨j, hj, hj'⟩ := isJoint_mem h.doc.complete h1
    have hn : j.name = name := Option.some.inj (hj'.name.symm.trans h2)
    have hm : name ∈ x.joints := h.index.mem_iff.2 (List.mem_map.2 ⟨j, hj, hn⟩)
    rw [XTree.joint, if_pos hm]
    exact findEl_joint_of_mem h.doc.complete h.doc.joints_nodup h1 h2

theorem link_iff {x : XTree} (h : InStep x) (name : String) (n : Node) :
    x.link name = some n ↔ ("link", n) ∈ x.doc ∧ n.name = some name :=
  ⟨findEl_mem, fun ⟨h1, h2⟩ => findEl_link_of_mem h.doc.complete h.doc.links_nodup h1 h2⟩

/-- A link or a joint is found exactly if the document has an element with this name, and it is this element; otherwise
an exception is thrown. -/
theorem C112_lookup [Printer] (doc : Nodes) (x : XTree) (h : Used doc x) (name : String) :
    (∀ n, x.linkAt name = .ok n ↔ ("link", n) ∈ x.doc ∧ n.name = some name) ∧
    (x.linkAt name = .throws ↔ ∀ n, ("link", n) ∈ x.doc → n.name ≠ some name) ∧
    (∀ n, x.jointAt name = .ok n ↔ ("joint", n) ∈ x.doc ∧ n.name = some name) ∧
    (x.jointAt name = .throws ↔ ∀ n, ("joint", n) ∈ x.doc → n.name ≠ some name) := by
  have hs := (used_inv h).step
  refine ⟨fun n => linkAt_ok.trans (link_iff hs name n), linkAt_throws.trans ?_,
    fun n => jointAt_ok.trans (joint_iff hs name n), jointAt_throws.trans ?_⟩
  · rw [Option.eq_none_iff_forall_ne_some]
    exact forall_congr' fun n => by rw [Ne, link_iff hs, not_and]
  · rw [Option.eq_none_iff_forall_ne_some]
    exact forall_congr' fun n => by rw [Ne, joint_iff hs, not_and]

theorem link_of_mem {x : XTree} (h : InStep x) {a : String} (ha : ∃ l ∈ (view x).links, l.name = a) :
    ∃ n, x.linkAt a = .ok n := by
  rcases h.link_cases a with ⟨-, h2⟩ | ⟨n, l, h1, -⟩
  · obtain ⟨l, hl, hn⟩ := ha
    rw [Tree.findLink, List.find?_eq_none] at h2
    exact absurd hn (by simpa using h2 l hl)
  · exact ⟨n, linkAt_ok.2 h1⟩

/-- The root link and both links of a joint can always be looked up; each other link is the child of exactly one joint
that can be looked up, and the root link of none. -/
theorem C112_tree [Printer] (doc : Nodes) (x : XTree) (h : Used doc x) :
    (∃ r, x.linkAt x.rootLink = .ok r) ∧
    (∀ name n, x.jointAt name = .ok n → ∃ a b l m, n.parentLink = some a ∧ n.childLink = some b ∧
      x.linkAt a = .ok l ∧ x.linkAt b = .ok m ∧ b ≠ x.rootLink) ∧
    ∀ a l, x.linkAt a = .ok l → a ≠ x.rootLink → ∃! name, ∃ n, x.jointAt name = .ok n ∧ n.childLink = some a := by
  obtain ⟨hs, ht, -⟩ := used_inv h
  refine ⟨link_of_mem hs ht.root_mem, fun name n hn => ?_, fun a l hl ha => ?_⟩
  · rcases hs.joint_cases name with ⟨-, h2, -⟩ | ⟨n', j, -, h2, -, h4, -, h6, -⟩
    · rw [jointAt_ok, h2] at hn
      simp at hn
    · have : n' = n := Option.some.inj (h2.symm.trans (jointAt_ok.1 hn))
      subst this
      obtain ⟨l, hl⟩ := link_of_mem hs (ht.parents j h6)
      obtain ⟨m, hm⟩ := link_of_mem hs (ht.children j h6)
      exact ⟨j.parent, j.child, l, m, h4.parent, h4.child, hl, hm, ht.root_not_child j h6⟩
  · rcases hs.link_cases a with ⟨h1, -⟩ | ⟨n, u, -, -, hu, h4⟩
    · rw [linkAt_ok, h1] at hl
      simp at hl
    · obtain ⟨j, hj, hc⟩ := ht.others_child u (List.mem_of_find?_eq_some h4) (by rw [hu]; exact ha)
      obtain ⟨n, hn, -, hij⟩ := hs.joint_of_mem hj
      refine ⟨j.name, ⟨n, jointAt_ok.2 hn, by rw [hij.child, hc, hu]⟩, ?_⟩
      rintro name ⟨m, hm, hmc⟩
      rcases hs.joint_cases name with ⟨-, h2, -⟩ | ⟨n', k, -, h2, -, k4, k5, k6, -⟩
      · rw [jointAt_ok, h2] at hm
        simp at hm
      · have : n' = m := Option.some.inj (h2.symm.trans (jointAt_ok.1 hm))
        subst this
        have e : k.child = j.child := by
          rw [k4.child] at hmc
          rw [Option.some.inj hmc, hc, hu]
        rw [← k5, List.inj_on_of_nodup_map ht.one_parent k6 hj e]

/-- What was written is found, and nothing else changes: not the other elements, the root link, or the joints attached to
each link. -/
theorem C112_write [Printer] (doc : Nodes) (x : XTree) (h : Used doc x) (name : String) (n n' : Node) :
    (x.linkAt name = .ok n → n'.name = n.name → ∃ y, x.writeLink name n' = (.ok (), y) ∧ Used doc y ∧
      y.linkAt name = .ok n' ∧ (∀ a, a ≠ name → y.linkAt a = x.linkAt a) ∧ (∀ a, y.jointAt a = x.jointAt a) ∧
      y.rootLink = x.rootLink ∧ ∀ a, y.childJoints a = x.childJoints a) ∧
    (x.jointAt name = .ok n → n'.name = n.name → n'.parentLink = n.parentLink → n'.childLink = n.childLink →
      n'.mimic = n.mimic → ∃ y, x.writeJoint name n' = (.ok (), y) ∧ Used doc y ∧
      y.jointAt name = .ok n' ∧ (∀ a, a ≠ name → y.jointAt a = x.jointAt a) ∧ (∀ a, y.linkAt a = x.linkAt a) ∧
      y.rootLink = x.rootLink ∧ ∀ a, y.childJoints a = x.childJoints a) := by
  have tail : ∀ y, Write x y → Used doc y := fun y hy => by
    obtain ⟨x0, h0, hx⟩ := h
    exact ⟨x0, h0, hx.tail (Or.inr hy)⟩
  constructor
  · intro h1 h2
    have hW := tail _ (Write.link x name n n' h1 h2)
    have e := linkAt_ok.1 h1
    have hn : n'.name = some name := h2.trans (findEl_mem e).2
    rw [XTree.writeLink, e] at hW ⊢
    have J : ∀ a, XTree.joint ⟨setEl "link" name n' x.doc, x.joints, x.root⟩ a = x.joint a := fun a => by
      simp only [XTree.joint, findEl_setEl_ne "link" name "joint" a n' x.doc hn (Or.inl (by decide))]
    refine ⟨_, rfl, hW, ?_, fun a ha => ?_, fun a => ?_, rfl, fun a => ?_⟩
    · rw [linkAt_ok]
      exact findEl_setEl _ _ _ _ hn (by
        have e' : findEl "link" name x.doc = some n := e
        rw [e']
        simp)
    · simp only [XTree.linkAt, XTree.link, findEl_setEl_ne "link" name "link" a n' x.doc hn (Or.inr ha)]
    · simp only [XTree.jointAt, J]
    · simp only [XTree.childJoints, J]
  · intro h1 h2 h3 h4 h5
    have hW := tail _ (Write.joint x name n n' h1 h2 h3 h4 h5)
    have e := jointAt_ok.1 h1
    obtain ⟨hm, hf⟩ := joint_findEl e
    have hn : n'.name = some name := h2.trans (findEl_mem hf).2
    rw [XTree.writeJoint, e] at hW ⊢
    have N : XTree.joint ⟨setEl "joint" name n' x.doc, x.joints, x.root⟩ name = some n' := by
      rw [XTree.joint, if_pos hm]
      exact findEl_setEl _ _ _ _ hn (by rw [hf]; simp)
    have J : ∀ a, a ≠ name → XTree.joint ⟨setEl "joint" name n' x.doc, x.joints, x.root⟩ a = x.joint a := fun a ha => by
      simp only [XTree.joint, findEl_setEl_ne "joint" name "joint" a n' x.doc hn (Or.inr ha)]
    refine ⟨_, rfl, hW, jointAt_ok.2 N, fun a ha => ?_, fun a => ?_, rfl, fun a => ?_⟩
    · simp only [XTree.jointAt, J a ha]
    · simp only [XTree.linkAt, XTree.link, findEl_setEl_ne "joint" name "link" a n' x.doc hn (Or.inl (by decide))]
    · unfold XTree.childJoints
      refine List.filter_congr fun j _ => ?_
      by_cases hj : j = name
      · subst hj
        rw [N, e]
        simp [h3]
      · rw [J j hj]

/-- Writing to a name that the document does not have throws and changes nothing. -/
theorem C112_write_missing [Printer] (doc : Nodes) (x : XTree) (h : Used doc x) (name : String) (n : Node) :
    ((∀ m, ("link", m) ∈ x.doc → m.name ≠ some name) → x.writeLink name n = (.throws, x)) ∧
    ((∀ m, ("joint", m) ∈ x.doc → m.name ≠ some name) → x.writeJoint name n = (.throws, x)) := by
  obtain ⟨-, h1, -, h2⟩ := C112_lookup doc x h name
  refine ⟨fun e => ?_, fun e => ?_⟩
  · rw [XTree.writeLink, linkAt_throws.1 (h1.2 e)]
  · rw [XTree.writeJoint, jointAt_throws.1 (h2.2 e)]

/-- A removed joint and its child link are not found any more; the others are found as before. -/
theorem C112_removed [Printer] (doc : Nodes) (x x' : XTree) (h : Used doc x) (name : String)
    (hr : x.rmLeafJoint name = (.ok (), x')) :
    ∃ n child, x.jointAt name = .ok n ∧ n.childLink = some child ∧ x'.jointAt name = .throws ∧ x'.linkAt child = .throws ∧
      (∀ a, a ≠ name → x'.jointAt a = x.jointAt a) ∧ ∀ a, a ≠ child → x'.linkAt a = x.linkAt a := by
  have hs := (used_inv h).step
  obtain ⟨child, hc, -, hdoc⟩ := rmLeaf_doc hs hr
  obtain ⟨h1, h2⟩ := rmLeaf_joint hs hr
  obtain ⟨n, hn, hnc⟩ := Option.bind_eq_some_iff.1 hc
  refine ⟨n, child, jointAt_ok.2 hn, hnc, jointAt_throws.2 h1, linkAt_throws.2 ?_, fun a ha => ?_, fun a ha => ?_⟩
  · rw [XTree.link, Option.eq_none_iff_forall_ne_some]
    intro m hm
    obtain ⟨m1, m2⟩ := findEl_mem hm
    rw [hdoc, List.mem_filter] at m1
    have := m1.2
    simp [m2] at this
  · simp only [XTree.jointAt, h2 a ha]
  · have : x'.link a = x.link a := by
      rw [XTree.link, XTree.link, hdoc, findEl, findEl, List.find?_filter]
      congr 2
      funext c
      by_cases e : c.1 = "link" ∧ c.2.name = some a
      · simp [e.1, e.2, ha]
      · simp [e]
    simp only [XTree.linkAt, this]

/-- Nothing checks what is written: if the caller changes a link of a joint, the tree has a link with two parents and the
document cannot be loaded any more. -/
theorem C112_unchecked : ∃ x n n' y, load chainDoc = .ok x ∧ x.jointAt "j" = .ok n ∧ n'.name = n.name ∧
    x.writeJoint "j" n' = (.ok (), y) ∧ load y.doc = .throws :=
  ⟨⟨chainDoc, ["k", "j"], "r"⟩, (jointEl "j" "fixed" "r" "c").2, (jointEl "j" "fixed" "r" "d").2, _, rfl, rfl, rfl, rfl, rfl⟩

/-- Non-trivial case: a joint is made revolute through the reference, then the other joint is removed. -/
example [Printer] : ∃ x y, Used chainDoc x ∧ x.jointAt "j" = .ok (jointEl "j" "revolute" "r" "c").2 ∧
    x.linkAt "e" = .throws ∧ x.rmLeafJoint "k" = (.ok (), y) ∧ y.linkAt "d" = .throws := by
  refine ⟨((⟨chainDoc, ["k", "j"], "r"⟩ : XTree).writeJoint "j" (jointEl "j" "revolute" "r" "c").2).2, _,
    ⟨⟨chainDoc, ["k", "j"], "r"⟩, rfl, Relation.ReflTransGen.single (Or.inr ?_)⟩, rfl, rfl, rfl, rfl⟩
  exact Write.joint _ "j" (jointEl "j" "fixed" "r" "c").2 _ rfl rfl rfl rfl rfl

end AlMath.UrdfXml
