import Verif.Lemmas.UrdfXmlFrame

/-!
# C70: the edited document differs only where it has to

almath/scenegraph/urdf.h:88-100: the parser preserves the order of the joints and lets one "modify the
XML tree and write it back while altering the document as little as possible".

The theorems compare the document before and after each edition, element by element, unknown elements
and attributes included. They hold whatever the outcome, unless it is mentioned. What the edited
elements become is in C48, C49, C50 and C51, which C71 transfers to documents.
-/

namespace AlMath.UrdfXml

open AlMath.Urdf AlMath.Spec AlMath.Spec.UrdfXml

/-- Loading does not change the document. -/
theorem C70_load (doc : Nodes) (x : XTree) (h : load doc = .ok x) : x.doc = doc := by
  obtain ⟨t, -, rfl⟩ := Res.map_eq_ok.1 h
  rfl

/-- `makeJointFixed` and `makeJointFloating` change one joint: its type and its axis. -/
theorem C70_make_joint (x : XTree) (name : String) :
    Edited (fun c n => c.1 = "joint" ∧ c.2.name = some name ∧ Retyped "fixed" c.2 n) x.doc
      (x.makeJointFixed name).2.doc ∧
    Edited (fun c n => c.1 = "joint" ∧ c.2.name = some name ∧ Retyped "floating" c.2 n) x.doc
      (x.makeJointFloating name).2.doc := by
  unfold XTree.makeJointFixed XTree.makeJointFloating
  cases h : x.joint name with
  | none => exact ⟨Edited.refl _ _, Edited.refl _ _⟩
  | some n => exact ⟨setType_edited h "fixed", setType_edited h "floating"⟩

/-- `makeContinuousJointsFixed` changes the joints it returns: their type and their axis. -/
theorem C70_continuous (x x' : XTree) (k : ℕ) (r : Res Unit) (names : List String)
    (h : makeContinuousJointsFixed k x = some (r, x', names)) :
    Edited (fun c n => c.1 = "joint" ∧ (∃ a ∈ names, c.2.name = some a) ∧ Retyped "fixed" c.2 n)
      x.doc x'.doc := by
  refine walkJoint_inv (vis := continuousVisitor) (I := fun s => Edited (fun c n => c.1 = "joint" ∧
    (∃ a ∈ s.2, c.2.name = some a) ∧ Retyped "fixed" c.2 n) x.doc s.1.doc) ?_ ?_ k x.root (x, []) r
    (x', names) (Edited.refl _ _) h
  · intro j n s hs hj
    simp only [continuousVisitor]
    cases ht : n.type with
    | none => exact hs
    | some ty =>
      cases ty with
      | continuous =>
        refine Edited.trans (P := fun c n => c.1 = "joint" ∧ (∃ a ∈ s.2 ++ [j], c.2.name = some a) ∧
          Retyped "fixed" c.2 n) (hs.mono ?_) ((setType_edited hj "fixed").mono ?_) (fun _ _ h => h) ?_
        · rintro c m ⟨h1, ⟨a, ha, h2⟩, h3⟩
          exact ⟨h1, ⟨a, by simp [ha], h2⟩, h3⟩
        · rintro c m ⟨h1, h2, h3⟩
          exact ⟨h1, ⟨j, by simp, h2⟩, h3⟩
        · rintro c m m' ⟨h1, h2, h3⟩ ⟨-, -, h4⟩
          exact ⟨h1, h2, h3.trans h4⟩
      | revolute => exact hs
      | prismatic => exact hs
      | fixed => exact hs
      | floating => exact hs
      | planar => exact hs
  · intro j n s hs _
    exact hs

/-- `squashJointMass` changes the inertials of the two links of the joint; the child link has none
afterwards. -/
theorem C70_squash_joint [Printer] (x : XTree) (name parent child : String) (j : Node)
    (hj : x.joint name = some j) (hp : j.parentLink = some parent) (hc : j.childLink = some child) :
    Edited (fun c n => c.1 = "link" ∧ (c.2.name = some parent ∨ c.2.name = some child) ∧
      SameBut ["inertial"] c.2 n) x.doc (x.squashJointMass name).2.doc ∧
    ((x.squashJointMass name).1 = .ok () → ∀ n, (x.squashJointMass name).2.link child = some n →
      n.all "inertial" = []) := by
  unfold XTree.squashJointMass
  rw [hj]
  obtain ⟨h1, h2⟩ := squash_edited x j hp hc
  refine ⟨h1.mono ?_, h2⟩
  rintro c n ⟨a1, ⟨a, ha, a2⟩, a3⟩
  rcases ha with rfl | rfl
  · exact ⟨a1, Or.inl a2, a3⟩
  · exact ⟨a1, Or.inr a2, a3⟩

/-- What the traversals that squash masses keep of a document. Helper of the proofs. Not in /repo:
specification. -/
def MassFrame (names : List String) (c : String × Node) (n : Node) : Prop :=
  (c.1 = "link" ∧ SameBut ["inertial"] c.2 n) ∨
  (c.1 = "joint" ∧ (∃ a ∈ names, c.2.name = some a) ∧ Retyped "fixed" c.2 n)

theorem massFrame_trans {names : List String} (c : String × Node) (n m : Node)
    (h : MassFrame names c n) (h' : MassFrame names (c.1, n) m) : MassFrame names c m := by
  rcases h with ⟨h1, h2⟩ | ⟨h1, h2, h3⟩ <;> rcases h' with ⟨k1, k2⟩ | ⟨k1, k2, k3⟩
  · exact Or.inl ⟨h1, h2.trans k2⟩
  · rw [h1] at k1; simp at k1
  · rw [h1] at k1; simp at k1
  · exact Or.inr ⟨h1, h2, h3.trans k3⟩

theorem squash_frame [Printer] {x0 : Nodes} {names : List String} {x : XTree} (j : Node)
    (hs : Edited (MassFrame names) x0 x.doc) :
    Edited (MassFrame names) x0 (x.squashJoint j).2.doc := by
  cases hc : j.childLink with
  | none => unfold XTree.squashJoint; rw [hc]; exact hs
  | some child =>
    cases hp : j.parentLink with
    | none =>
      unfold XTree.squashJoint
      rw [hc, hp]
      dsimp only
      cases x.link child with
      | none => exact hs
      | some c =>
        dsimp only
        cases c.find "inertial" with
        | none => exact hs
        | some i => exact hs
    | some parent =>
      refine hs.trans ((squash_edited x j hp hc).1.mono ?_) (fun _ _ h => h) massFrame_trans
      rintro c n ⟨h1, -, h3⟩
      exact Or.inl ⟨h1, h3⟩

/-- `squashFixedJointsMass` changes the inertials of links, and `makeMasslessJointsFixed` also the type
and the axis of the joints it returns. -/
theorem C70_squash [Printer] (x x' : XTree) (k : ℕ) (r : Res Unit) :
    (squashFixedJointsMass k x = some (r, x', ()) →
      Edited (fun c n => c.1 = "link" ∧ SameBut ["inertial"] c.2 n) x.doc x'.doc) ∧
    ∀ names, makeMasslessJointsFixed k x = some (r, x', names) →
      Edited (fun c n => (c.1 = "link" ∧ SameBut ["inertial"] c.2 n) ∨
        (c.1 = "joint" ∧ (∃ a ∈ names, c.2.name = some a) ∧ Retyped "fixed" c.2 n)) x.doc x'.doc := by
  constructor
  · intro h
    have : Edited (MassFrame []) x.doc x'.doc := by
      refine walkJoint_inv (vis := squashFixedVisitor) (I := fun s => Edited (MassFrame []) x.doc s.1.doc)
        (fun j n s hs _ => hs) ?_ k x.root (x, ()) r (x', ()) (Edited.refl _ _) h
      intro j n s hs hj
      simp only [squashFixedVisitor]
      cases ht : n.type with
      | none => exact hs
      | some ty =>
        cases ty with
        | fixed => exact squash_frame n hs
        | revolute => exact hs
        | prismatic => exact hs
        | continuous => exact hs
        | floating => exact hs
        | planar => exact hs
    refine this.mono ?_
    rintro c n (h | ⟨-, ⟨a, ha, -⟩, -⟩)
    · exact h
    · simp at ha
  · intro names h
    refine walkJoint_inv (vis := masslessVisitor) (I := fun s => Edited (MassFrame s.2) x.doc s.1.doc)
      (fun j n s hs _ => hs) ?_ k x.root (x, []) r (x', names) (Edited.refl _ _) h
    intro j n s hs hj
    simp only [masslessVisitor]
    cases ht : n.type with
    | none => exact hs
    | some ty =>
      have key : Edited (MassFrame ((match n.childLink.bind s.1.link with
            | none => ((Res.throws : Res Unit), s)
            | some c =>
              match c.find "inertial" with
              | none => (.ok (), { s.1 with doc := setEl "joint" j (makeFixed n) s.1.doc },
                  s.2 ++ [j])
              | some _ => (.ok (), s)).2.2)) x.doc (match n.childLink.bind s.1.link with
            | none => ((Res.throws : Res Unit), s)
            | some c =>
              match c.find "inertial" with
              | none => (.ok (), { s.1 with doc := setEl "joint" j (makeFixed n) s.1.doc },
                  s.2 ++ [j])
              | some _ => (.ok (), s)).2.1.doc := by
        cases n.childLink.bind s.1.link with
        | none => exact hs
        | some c =>
          dsimp only
          cases c.find "inertial" with
          | some i => exact hs
          | none =>
            dsimp only
            refine Edited.trans (P := MassFrame (s.2 ++ [j])) (hs.mono ?_)
              ((setType_edited hj "fixed").mono ?_) (fun _ _ h => h) massFrame_trans
            · rintro c m (h | ⟨h1, ⟨a, ha, h2⟩, h3⟩)
              · exact Or.inl h
              · exact Or.inr ⟨h1, ⟨a, by simp [ha], h2⟩, h3⟩
            · rintro c m ⟨h1, h2, h3⟩
              exact Or.inr ⟨h1, ⟨j, by simp, h2⟩, h3⟩
      cases ty with
      | fixed => exact squash_frame n hs
      | revolute => exact key
      | prismatic => exact key
      | continuous => exact key
      | floating => exact key
      | planar => exact key

/-- `transport_root_link_frame` changes the origins of the joints attached to the root link, and the
origins of the elements of the root link. -/
theorem C70_transport [Printer] (x : XTree) (pose : UPose) (noprune : String → Bool) :
    Edited (fun c n => (c.1 = "joint" ∧ c.2.parentLink = some x.root ∧ SameBut ["origin"] c.2 n) ∨
      (c.1 = "link" ∧ c.2.name = some x.root ∧ FrameMoved c.2 n)) x.doc
      (x.transportRootLinkFrame pose noprune).2.doc := by
  refine (transport_edited x pose noprune).mono ?_
  rintro c n (⟨-, ⟨a, ha, -⟩, -⟩ | ⟨h1, ⟨a, ha, h2⟩, h3⟩ | ⟨h1, ⟨a, ha, h2⟩, h3⟩)
  · simp at ha
  · rw [Set.mem_singleton_iff] at ha
    exact Or.inl ⟨h1, by rw [h2, ha], h3⟩
  · rw [Set.mem_singleton_iff] at ha
    exact Or.inr ⟨h1, by rw [h2, ha], h3⟩

/-- `define_as_root_link` changes the links and the axis of the joints on the path to the new root; for
the parent links of these joints, it moves the frame, that is it changes the origins of the joints
attached to these links and of the elements of these links. -/
theorem C70_reroot [Printer] (x x' : XTree) (k : ℕ) (link : String) (r : Res Unit)
    (h : x.defineAsRootLink k link = some (r, x')) :
    x' = x ∨ ∃ path, x.pathToRoot k link = some (.ok path) ∧
      Edited (RerootEdit {nm | nm ∈ path}
        {b | ∃ nm ∈ path, (x.joint nm).bind Node.parentLink = some b}) x.doc x'.doc := by
  unfold XTree.defineAsRootLink at h
  cases hp : x.pathToRoot k link with
  | none => rw [hp] at h; simp at h
  | some q =>
    rw [hp] at h
    cases q with
    | throws => simp only [Option.some.injEq, Prod.mk.injEq] at h; exact Or.inl h.2.symm
    | ub => simp only [Option.some.injEq, Prod.mk.injEq] at h; exact Or.inl h.2.symm
    | ok path =>
      right
      refine ⟨path, rfl, ?_⟩
      simp only [Option.some.injEq] at h
      have hx' : x' = (XTree.flipAll path.reverse x).2 := by rw [h]
      have hnd := pathToRoot_nodup hp
      rw [hx']
      refine (flipAll_edited path.reverse (List.nodup_reverse.2 hnd) x).mono fun c n hc => hc.mono ?_ ?_
      · intro nm hnm
        simpa using hnm
      · rintro b ⟨nm, hnm, hb⟩
        have hnm' : nm ∈ path := by simpa using hnm
        refine ⟨nm, hnm', ?_⟩
        obtain ⟨l1, l2, rfl⟩ := List.append_of_mem hnm'
        obtain ⟨m, c, e1, -⟩ := pathToRoot_suffix l1 hp
        have : x.joint nm = findEl "joint" nm x.doc := by
          unfold XTree.joint at e1 ⊢
          split_ifs at e1 ⊢
          · rfl
          · simp at e1
        rw [this]
        exact hb

/-- `rm_root_joint` removes two elements: a joint attached to the root link, and the root link. -/
theorem C70_remove_root (x x' : XTree) (hx : InStep x) (h : x.rmRootJoint = (.ok (), x')) :
    ∃ name, x.childJoints x.root = [name] ∧
      x'.doc = x.doc.filter fun c => ¬ ((c.1 = "joint" ∧ c.2.name = some name) ∨
        (c.1 = "link" ∧ c.2.name = some x.root)) := by
  unfold XTree.rmRootJoint at h
  cases hl : x.childJoints x.root with
  | nil => rw [hl] at h; simp at h
  | cons j rest =>
    rw [hl] at h
    cases rest with
    | cons k rest => simp at h
    | nil =>
      dsimp only at h
      refine ⟨j, rfl, ?_⟩
      cases hc : (x.joint j).bind Node.childLink with
      | none => rw [hc] at h; simp at h
      | some c =>
        cases hr : x.link x.root with
        | none => rw [hc, hr] at h; simp at h
        | some l =>
          rw [hc, hr] at h
          simp only [Prod.mk.injEq, true_and] at h
          rw [← h]
          dsimp only
          rw [eraseEl_filter (eraseEl_link hx.doc x.root).1 (Or.inl rfl),
            eraseEl_filter hx.doc (Or.inr rfl), List.filter_filter]
          refine List.filter_congr fun d _ => ?_
          rw [← Bool.decide_and]
          exact decide_eq_decide.2 (by tauto)

theorem rmLeaf_doc {x x' : XTree} (hx : InStep x) {name : String}
    (h : x.rmLeafJoint name = (.ok (), x')) :
    ∃ child, (x.joint name).bind Node.childLink = some child ∧ x.childJoints child = [] ∧
      x'.doc = x.doc.filter fun c => ¬ ((c.1 = "joint" ∧ c.2.name = some name) ∨
        (c.1 = "link" ∧ c.2.name = some child)) := by
  unfold XTree.rmLeafJoint at h
  cases hj : x.joint name with
  | none => rw [hj] at h; simp at h
  | some n =>
    rw [hj] at h
    dsimp only at h
    cases hc : n.childLink with
    | none => rw [hc] at h; simp at h
    | some c =>
      rw [hc] at h
      dsimp only at h
      by_cases he : x.childJoints c ≠ []
      · rw [if_pos he] at h; simp at h
      · rw [if_neg he] at h
        cases hl : x.link c with
        | none => rw [hl] at h; simp at h
        | some l =>
          rw [hl] at h
          simp only [Prod.mk.injEq, true_and] at h
          refine ⟨c, by simp [hc], by simpa using he, ?_⟩
          rw [← h]
          dsimp only
          rw [eraseEl_filter (eraseEl_joint hx.doc name).1 (Or.inr rfl),
            eraseEl_filter hx.doc (Or.inl rfl), List.filter_filter]
          refine List.filter_congr fun d _ => ?_
          rw [← Bool.decide_and]
          exact decide_eq_decide.2 (by tauto)

/-- `rm_leaf_joint` removes two elements: the joint and its child link. -/
theorem C70_remove_leaf (x x' : XTree) (hx : InStep x) (name : String)
    (h : x.rmLeafJoint name = (.ok (), x')) :
    ∃ child, (x.joint name).bind Node.childLink = some child ∧ x.childJoints child = [] ∧
      x'.doc = x.doc.filter fun c => ¬ ((c.1 = "joint" ∧ c.2.name = some name) ∨
        (c.1 = "link" ∧ c.2.name = some child)) := rmLeaf_doc hx h

theorem rmLeaf_joint {x x' : XTree} (hx : InStep x) {name : String}
    (h : x.rmLeafJoint name = (.ok (), x')) :
    x'.joint name = none ∧ ∀ nm, nm ≠ name → x'.joint nm = x.joint nm := by
  obtain ⟨child, -, -, hdoc⟩ := rmLeaf_doc hx h
  have hjs : x'.joints = x.joints.erase name := by
    unfold XTree.rmLeafJoint at h
    cases hj : x.joint name with
    | none => rw [hj] at h; simp at h
    | some n =>
      rw [hj] at h
      dsimp only at h
      cases hc : n.childLink with
      | none => rw [hc] at h; simp at h
      | some c =>
        rw [hc] at h
        dsimp only at h
        split_ifs at h
        · simp at h
        · cases hl : x.link c with
          | none => rw [hl] at h; simp at h
          | some l =>
            rw [hl] at h
            simp only [Prod.mk.injEq, true_and] at h
            rw [← h]
  unfold XTree.joint
  rw [hjs]
  refine ⟨if_neg fun h => (hx.joints_nodup.mem_erase_iff.1 h).1 rfl, fun nm hnm => ?_⟩
  rw [hdoc]
  by_cases hmem : nm ∈ x.joints
  · rw [if_pos (hx.joints_nodup.mem_erase_iff.2 ⟨hnm, hmem⟩), if_pos hmem]
    unfold findEl
    rw [List.find?_filter]
    congr 2
    funext c
    simp only [decide_eq_true_eq]
    refine decide_eq_decide.2 ⟨fun h => h.2, fun h => ⟨?_, h⟩⟩
    rintro (⟨-, e⟩ | ⟨e, -⟩)
    · rw [h.2] at e
      exact hnm (Option.some.inj e)
    · rw [h.1] at e
      simp at e
  · rw [if_neg (fun h => hmem (hx.joints_nodup.mem_erase_iff.1 h).2), if_neg hmem]

theorem rmLeaves_names (names : List String) {x x' : XTree} (hx : InStep x)
    (h : rmLeaves names x = (.ok (), x')) : names.Nodup ∧ ∀ nm ∈ names, x.joint nm ≠ none := by
  induction names generalizing x with
  | nil => simp
  | cons nm rest ih =>
    simp only [rmLeaves] at h
    rcases hr : x.rmLeafJoint nm with ⟨r, x1⟩
    rw [hr] at h
    cases r with
    | throws => simp at h
    | ub => simp at h
    | ok u =>
      have hx1 : InStep x1 := by
        have := (rmLeafJoint_sim hx nm).2.2
        rw [hr] at this
        exact this
      obtain ⟨i1, i2⟩ := ih hx1 h
      obtain ⟨j1, j2⟩ := rmLeaf_joint hx hr
      have hnm : nm ∉ rest := fun hm => i2 nm hm j1
      refine ⟨List.nodup_cons.2 ⟨hnm, i1⟩, ?_⟩
      intro k hk
      rcases List.mem_cons.1 hk with rfl | hk
      · obtain ⟨c, hc, -⟩ := rmLeaf_doc hx hr
        intro e
        rw [e] at hc
        simp at hc
      · rw [← j2 k (fun e => hnm (e ▸ hk))]
        exact i2 k hk

theorem rmLeaves_doc (names : List String) {x x' : XTree} (hx : InStep x)
    (h : rmLeaves names x = (.ok (), x')) :
    x'.doc = x.doc.filter fun c => ¬ (∃ nm ∈ names, (c.1 = "joint" ∧ c.2.name = some nm) ∨
      (c.1 = "link" ∧ c.2.name = (x.joint nm).bind Node.childLink)) := by
  have hnd := (rmLeaves_names names hx h).1
  induction names generalizing x with
  | nil =>
    simp only [rmLeaves, Prod.mk.injEq, true_and] at h
    subst h
    simp
  | cons nm rest ih =>
    rw [List.nodup_cons] at hnd
    simp only [rmLeaves] at h
    rcases hr : x.rmLeafJoint nm with ⟨r, x1⟩
    rw [hr] at h
    cases r with
    | throws => simp at h
    | ub => simp at h
    | ok u =>
      dsimp only at h
      obtain ⟨child, h1, h2, h3⟩ := rmLeaf_doc hx hr
      obtain ⟨-, j2⟩ := rmLeaf_joint hx hr
      have hx1 : InStep x1 := by
        have := (rmLeafJoint_sim hx nm).2.2
        rw [hr] at this
        exact this
      rw [ih hx1 h hnd.2, h3, List.filter_filter]
      refine List.filter_congr fun d hd => ?_
      rw [← Bool.decide_and]
      refine decide_eq_decide.2 ?_
      have hjoint : ∀ k ∈ rest, x1.joint k = x.joint k :=
        fun k hk => j2 k fun e => hnd.1 (e ▸ hk)
      constructor
      · rintro ⟨a1, a2⟩ ⟨k, hk, a3⟩
        rcases List.mem_cons.1 hk with rfl | hk
        · rw [h1] at a3; exact a2 a3
        · exact a1 ⟨k, hk, by rw [hjoint k hk]; exact a3⟩
      · intro a
        refine ⟨?_, ?_⟩
        · rintro ⟨k, hk, a3⟩
          rw [hjoint k hk] at a3
          exact a ⟨k, List.mem_cons_of_mem _ hk, a3⟩
        · intro a3
          refine a ⟨nm, by simp, ?_⟩
          rw [h1]
          exact a3

/-- `rm_root_joint` and `rm_leaf_joint` change nothing if they do not return. -/
theorem C70_remove_rejected (x : XTree) :
    (x.rmRootJoint.1 ≠ .ok () → x.rmRootJoint.2 = x) ∧
    ∀ name, (x.rmLeafJoint name).1 ≠ .ok () → (x.rmLeafJoint name).2 = x := by
  constructor
  · intro h
    unfold XTree.rmRootJoint at h ⊢
    split at h
    · split at h
      · exact absurd rfl h
      · rfl
    · rfl
  · intro name h
    unfold XTree.rmLeafJoint at h ⊢
    cases hj : x.joint name with
    | none => rfl
    | some n =>
      rw [hj] at h
      dsimp only at h ⊢
      cases hc : n.childLink with
      | none => rfl
      | some c =>
        rw [hc] at h
        dsimp only at h ⊢
        by_cases he : x.childJoints c ≠ []
        · rw [if_pos he]
        · rw [if_neg he] at h ⊢
          cases hl : x.link c with
          | none => rfl
          | some l => rw [hl] at h; exact absurd rfl h

theorem rmLeaves_prefix (names : List String) (x : XTree) :
    ∃ done, done <+: names ∧ rmLeaves done x = (.ok (), (rmLeaves names x).2) := by
  induction names generalizing x with
  | nil => exact ⟨[], List.prefix_refl _, rfl⟩
  | cons nm rest ih =>
    rcases hr : x.rmLeafJoint nm with ⟨r, x1⟩
    have hrej := (C70_remove_rejected x).2 nm
    rw [hr] at hrej
    cases r with
    | throws =>
      refine ⟨[], List.nil_prefix, ?_⟩
      simp only [rmLeaves, hr]
      exact congrArg (Prod.mk _) (hrej (by simp)).symm
    | ub =>
      refine ⟨[], List.nil_prefix, ?_⟩
      simp only [rmLeaves, hr]
      exact congrArg (Prod.mk _) (hrej (by simp)).symm
    | ok u =>
      obtain ⟨done, h1, h2⟩ := ih x1
      refine ⟨nm :: done, List.cons_prefix_cons.2 ⟨rfl, h1⟩, ?_⟩
      simp only [rmLeaves, hr]
      exact h2

/-- If `removeSubTreeIfJoint` does not return, all it may have done is to remove joints with their child
links. -/
theorem C70_remove_subtree_rejected (x x' : XTree) (hx : InStep x) (k : ℕ) (pred : Node → Bool)
    (r : Res (List String)) (h : removeSubTreeIfJoint k pred x = some (r, x')) :
    ∃ names : List String, (∀ nm ∈ names, x.joint nm ≠ none) ∧
    x'.doc = x.doc.filter fun c => ¬ (∃ nm ∈ names, (c.1 = "joint" ∧ c.2.name = some nm) ∨
      (c.1 = "link" ∧ c.2.name = (x.joint nm).bind Node.childLink)) := by
  have nothing : x' = x → ∃ names : List String, (∀ nm ∈ names, x.joint nm ≠ none) ∧
    x'.doc = x.doc.filter fun c => ¬ (∃ nm ∈ names, (c.1 = "joint" ∧ c.2.name = some nm) ∨
      (c.1 = "link" ∧ c.2.name = (x.joint nm).bind Node.childLink)) := by
    rintro rfl
    exact ⟨[], by simp, by simp⟩
  unfold removeSubTreeIfJoint at h
  cases ht : traverseJoints (listVisitor pred) k (x, 0, []) with
  | none => rw [ht] at h; simp at h
  | some p =>
    obtain ⟨q, s⟩ := p
    rw [ht] at h
    cases q with
    | throws =>
      simp only [Option.some.injEq, Prod.mk.injEq] at h
      exact nothing h.2.symm
    | ub =>
      simp only [Option.some.injEq, Prod.mk.injEq] at h
      exact nothing h.2.symm
    | ok u =>
      dsimp only at h
      obtain ⟨done, -, hd⟩ := rmLeaves_prefix s.2.2.reverse x
      rcases hr : rmLeaves s.2.2.reverse x with ⟨r', x1⟩
      rw [hr] at h hd
      simp only [Option.some.injEq, Prod.mk.injEq] at h
      obtain ⟨-, rfl⟩ := h
      exact ⟨done, (rmLeaves_names _ hx hd).2, rmLeaves_doc _ hx hd⟩

/-- `removeSubTreeIfJoint` removes the joints it returns and their child links. -/
theorem C70_remove_subtree (x x' : XTree) (hx : InStep x) (k : ℕ) (pred : Node → Bool)
    (names : List String) (h : removeSubTreeIfJoint k pred x = some (.ok names, x')) :
    (∀ nm ∈ names, x.joint nm ≠ none) ∧
    x'.doc = x.doc.filter fun c => ¬ (∃ nm ∈ names, (c.1 = "joint" ∧ c.2.name = some nm) ∨
      (c.1 = "link" ∧ c.2.name = (x.joint nm).bind Node.childLink)) := by
  unfold removeSubTreeIfJoint at h
  cases ht : traverseJoints (listVisitor pred) k (x, 0, []) with
  | none => rw [ht] at h; simp at h
  | some p =>
    obtain ⟨r, s⟩ := p
    rw [ht] at h
    cases r with
    | throws => simp at h
    | ub => simp at h
    | ok u =>
      dsimp only at h
      rcases hr : rmLeaves s.2.2.reverse x with ⟨r, x1⟩
      rw [hr] at h
      simp only [Option.some.injEq, Prod.mk.injEq] at h
      obtain ⟨h1, rfl⟩ := h
      obtain ⟨v, rfl, rfl⟩ := Res.map_eq_ok.1 h1
      have e1 := (rmLeaves_names _ hx hr).2
      have e2 := rmLeaves_doc _ hx hr
      simp only [List.mem_reverse] at e1 e2
      exact ⟨e1, e2⟩

/-! ### Example -/

/-- An attribute. Helper of the examples. Not in /repo: specification. -/
def attr (k v : String) : String × Node := (k, ⟨.ofStr v, []⟩)

/-- An element with attributes and children. Helper of the examples. Not in /repo: specification. -/
def elem (attrs : Nodes) (ch : Nodes) : Node := ⟨.ofStr "", ("<xmlattr>", ⟨.ofStr "", attrs⟩) :: ch⟩

/-- The element of a joint. Helper of the examples. Not in /repo: specification. -/
def jointEl (name ty parent child : String) : String × Node :=
  ("joint", elem [attr "name" name, attr "type" ty, attr "vendor" "x"]
    [("parent", elem [attr "link" parent] []), ("gazebo", elem [] []),
      ("child", elem [attr "link" child] [])])

/-- A robot with two joints, and elements and attributes that are not in the specification of URDF.
Helper of the examples. Not in /repo: specification. -/
def smallDoc : Nodes :=
  [attr "comment" "a robot", ("link", elem [attr "name" "r"] [("visual", elem [] [])]),
    ("link", elem [attr "name" "a"] []), ("link", elem [attr "name" "b"] [("inertial", elem [] [])]),
    jointEl "ra" "continuous" "r" "a", ("gazebo", elem [] []), jointEl "ab" "revolute" "a" "b"]

/-- The index of the robot. Helper of the examples. Not in /repo: specification. -/
def small : XTree := ⟨smallDoc, ["ab", "ra"], "r"⟩

theorem small_joints : jointsOf smallDoc =
    [⟨"ra", some .continuous, "r", "a", none, none, none⟩,
      ⟨"ab", some .revolute, "a", "b", none, none, none⟩] := by
  simp [jointsOf, docJoints, smallDoc, jointEl, attr, elem, readElem, Node.name, Node.getStr, Node.get,
    Node.find, Node.children, Node.parentLink, Node.childLink, Node.type, Node.typeOfString,
    Node.origin, Node.axis, Node.getVec, Node.mimic, Node.text, Text.ofStr]

theorem small_links : (linksOf smallDoc).map ULink.name = ["r", "a", "b"] := by
  simp [linksOf, docLinks, smallDoc, jointEl, attr, elem, readElem, Node.name, Node.getStr, Node.get,
    Node.find, Node.children, Node.text, Text.ofStr]

theorem small_complete : ∀ c ∈ smallDoc, Complete (readElem c) := by
  intro c hc
  simp only [smallDoc, List.mem_cons, List.not_mem_nil, or_false] at hc
  rcases hc with rfl | rfl | rfl | rfl | rfl | rfl | rfl <;>
    simp [Complete, jointEl, attr, elem, readElem, Node.name, Node.getStr, Node.get,
    Node.find, Node.children, Node.parentLink, Node.childLink, Node.type, Node.typeOfString,
    Node.origin, Node.axis, Node.getVec, Node.mimic, Node.text, Text.ofStr]

theorem small_inStep : InStep small := by
  refine ⟨⟨small_complete, ?_, ?_⟩, ?_⟩
  · rw [show small.doc = smallDoc from rfl, small_links]; decide
  · rw [show small.doc = smallDoc from rfl, small_joints]; decide
  · rw [show small.doc = smallDoc from rfl, small_joints]
    exact List.Perm.swap _ _ _

theorem small_load : load smallDoc = .ok small := by
  have h : Urdf.load (smallDoc.map readElem) =
      .ok ⟨linksOf smallDoc, index (jointsOf smallDoc), "r"⟩ := by
    refine (load_ok_iff _ _).2 ⟨⟨?_, ?_, ?_, ?_, ?_, ?_, ?_, ?_, ?_⟩, rfl, rfl, ?_, ?_⟩
    · intro e he
      obtain ⟨c, hc, rfl⟩ := List.mem_map.1 he
      exact small_complete c hc
    · exact small_inStep.doc.links_nodup
    · exact small_inStep.doc.joints_nodup
    · intro j hj
      have hl : j.parent ∈ (linksOf smallDoc).map ULink.name := by
        rw [small_links]
        change j ∈ jointsOf smallDoc at hj
        rw [small_joints] at hj
        simp only [List.mem_cons, List.not_mem_nil, or_false] at hj
        rcases hj with rfl | rfl <;> simp
      exact List.mem_map.1 hl
    · intro j hj
      have hl : j.child ∈ (linksOf smallDoc).map ULink.name := by
        rw [small_links]
        change j ∈ jointsOf smallDoc at hj
        rw [small_joints] at hj
        simp only [List.mem_cons, List.not_mem_nil, or_false] at hj
        rcases hj with rfl | rfl <;> simp
      exact List.mem_map.1 hl
    · change ((jointsOf smallDoc).map UJoint.child).Nodup
      rw [small_joints]; decide
    · change ∃! l, l ∈ (linksOf smallDoc).map ULink.name ∧ l ∉ (jointsOf smallDoc).map UJoint.child
      rw [small_joints, small_links]
      refine ⟨"r", by decide, ?_⟩
      intro l hl
      simp at hl
      tauto
    · intro j hj s hs
      change j ∈ jointsOf smallDoc at hj
      rw [small_joints] at hj
      simp only [List.mem_cons, List.not_mem_nil, or_false] at hj
      rcases hj with rfl | rfl <;> simp at hs
    · intro ds j rest e s hs
      have hj : j ∈ jointsOf smallDoc := by
        change jointsOf smallDoc = _ at e
        rw [e]; simp
      rw [small_joints] at hj
      simp only [List.mem_cons, List.not_mem_nil, or_false] at hj
      rcases hj with rfl | rfl <;> simp at hs
    · change "r" ∈ (linksOf smallDoc).map ULink.name
      rw [small_links]; decide
    · change "r" ∉ (jointsOf smallDoc).map UJoint.child
      rw [small_joints]; decide
  unfold load
  rw [h, Res.map_ok, small_joints]
  rfl

/-- The hypotheses of the theorems hold for the robot: the functions return without exception, and
change something. -/
example : (∃ x', makeContinuousJointsFixed 3 small = some (.ok (), x', ["ra"])) ∧
    (∃ x', small.rmLeafJoint "ab" = (.ok (), x')) ∧ (∃ x', small.rmRootJoint = (.ok (), x')) ∧
    (∃ x', removeSubTreeIfJoint 3 (fun n => n.name = some "ra") small = some (.ok ["ra", "ab"], x')) :=
  ⟨⟨_, rfl⟩, ⟨_, rfl⟩, ⟨_, rfl⟩, ⟨_, rfl⟩⟩

/-- Same thing for the functions that compute with reals. -/
example [Printer] : small.pathToRoot 3 "b" = some (.ok ["ab", "ra"]) ∧
    small.defineAsRootLink 3 "b" = some (XTree.flipAll ["ra", "ab"] small) ∧
    (∃ x', squashFixedJointsMass 3 small = some (.ok (), x', ())) ∧
    (∃ x', makeMasslessJointsFixed 3 small = some (.ok (), x', ["ra"])) ∧
    ∃ j, small.joint "ab" = some j ∧ j.parentLink = some "a" ∧ j.childLink = some "b" :=
  ⟨rfl, rfl, ⟨_, rfl⟩, ⟨_, rfl⟩, _, rfl, rfl, rfl⟩

end AlMath.UrdfXml
