import Verif.Lemmas.UrdfXmlLoad
import Verif.Props.C49
import Verif.Props.C70

/-!
What holds after any sequence of editions of a document.
-/

namespace AlMath.UrdfXml

open AlMath.Urdf AlMath.Spec AlMath.Spec.UrdfXml

/-- What holds all along. Helper of the proofs. Not in /repo: specification. -/
structure Inv (x : XTree) : Prop where
  step : InStep x
  tree : Consistent' (view x)
  order : MimicOrder (jointsOf x.doc)

/-! ### Editions that keep the bones -/

/-- What most editions keep of an element. Helper of the proofs. Not in /repo: specification. -/
def Keeps (c : String × Node) (n : Node) : Prop :=
  (c.1 = "link" → n.name = c.2.name) ∧
  (c.1 = "joint" → n.name = c.2.name ∧ n.parentLink = c.2.parentLink ∧ n.childLink = c.2.childLink ∧
    n.mimic = c.2.mimic)

theorem keeps_complete {c c' : String × Node} (h1 : c'.1 = c.1) (h2 : c'.2 = c.2 ∨ Keeps c c'.2)
    (hc : Complete (readElem c)) : Complete (readElem c') := by
  rcases h2 with h2 | ⟨h2, h3⟩
  · have : c' = c := Prod.ext h1 h2
    rw [this]; exact hc
  · unfold readElem at hc ⊢
    rw [h1]
    by_cases e : c.1 = "link"
    · rw [if_pos e] at hc ⊢
      simp only [Complete] at hc ⊢
      rw [h2 e]; exact hc
    · rw [if_neg e] at hc ⊢
      by_cases e' : c.1 = "joint"
      · rw [if_pos e'] at hc ⊢
        obtain ⟨a1, a2, a3, a4⟩ := h3 e'
        simp only [Complete] at hc ⊢
        rw [a1, a2, a3, a4]; exact hc
      · rw [if_neg e']; trivial

theorem edited_complete {doc doc' : Nodes} (h : Edited Keeps doc doc')
    (hc : ∀ c ∈ doc, Complete (readElem c)) : ∀ c ∈ doc', Complete (readElem c) := by
  induction h with
  | nil => simp
  | @cons c c' l l' h1 h2 ih =>
    intro d hd
    rcases List.mem_cons.1 hd with rfl | hd
    · exact keeps_complete h1.1 h1.2 (hc c (by simp))
    · exact ih (fun e he => hc e (by simp [he])) d hd

theorem view_bones {x x' : XTree} (hj : x'.joints = x.joints)
    (hb : (jointsOf x'.doc).map bone = (jointsOf x.doc).map bone) :
    (view x').joints.map bone = (view x).joints.map bone := by
  have e : ∀ (L : List UJoint) (nm : String), ((L.find? fun j => decide (j.name = nm)).map bone) =
      (L.map bone).find? fun b => decide (b.1 = nm) := by
    intro L nm
    rw [List.find?_map]
    rfl
  unfold view
  rw [hj]
  simp only [List.map_filterMap, e, hb]

theorem bones_filter (L : List UJoint) (link : String) :
    (L.filter fun j => decide (j.parent = link)).map UJoint.name =
      ((L.map bone).filter fun b => decide (b.2.1 = link)).map Prod.fst := by
  rw [List.filter_map, List.map_map]
  rfl

theorem fileOrder_iff {x : XTree} (h : InStep x) : FileOrder x ↔ ∀ link,
    (((view x).joints.map bone).filter fun b => decide (b.2.1 = link)).map Prod.fst =
      (((jointsOf x.doc).map bone).filter fun b => decide (b.2.1 = link)).map Prod.fst := by
  unfold FileOrder
  refine forall_congr' fun link => ?_
  rw [h.childJoints_eq, ← bones_filter, ← bones_filter]
  rfl

theorem keeps_inv {x x' : XTree} (h : Inv x) (he : Edited Keeps x.doc x'.doc)
    (hj : x'.joints = x.joints) (hr : x'.root = x.root) :
    Inv x' ∧ mimicData (jointsOf x'.doc) = mimicData (jointsOf x.doc) ∧ (FileOrder x → FileOrder x') := by
  obtain ⟨h1, h2, h3⟩ := h
  have hc' := edited_complete he h1.doc.complete
  have hb : (jointsOf x'.doc).map bone = (jointsOf x.doc).map bone := by
    refine edited_joints bone ?_ he h1.doc.complete hc'
    rintro c n ⟨-, h⟩ hc j k hj hk
    obtain ⟨a1, a2, a3, -⟩ := h hc
    rw [hj.name, hk.name] at a1
    rw [hj.parent, hk.parent] at a2
    rw [hj.child, hk.child] at a3
    simp only [bone, Option.some.inj a1, Option.some.inj a2, Option.some.inj a3]
  have hm : mimicData (jointsOf x'.doc) = mimicData (jointsOf x.doc) := by
    refine edited_joints (fun j => (j.name, j.mimic)) ?_ he h1.doc.complete hc'
    rintro c n ⟨-, h⟩ hc j k hj hk
    obtain ⟨a1, -, -, a4⟩ := h hc
    rw [hj.name, hk.name] at a1
    rw [hj.mimic, hk.mimic] at a4
    rw [Option.some.inj a1, Option.map_injective (Option.some_injective _) a4]
  have hn : (jointsOf x'.doc).map UJoint.name = (jointsOf x.doc).map UJoint.name := bones_names hb
  have hl : (linksOf x'.doc).map ULink.name = (linksOf x.doc).map ULink.name :=
    edited_links (fun c n h hc => h.1 hc) he h1.doc.complete hc'
  have hs : InStep x' := by
    refine ⟨⟨hc', by rw [hl]; exact h1.doc.links_nodup, by rw [hn]; exact h1.doc.joints_nodup⟩, ?_⟩
    rw [hj, hn]; exact h1.index
  refine ⟨⟨hs, consistent_congr h2 (List.Perm.of_eq (view_bones hj hb)) hl hr, ?_⟩, hm, ?_⟩
  · exact mimicOrder_congr hm h3
  · rw [fileOrder_iff h1, fileOrder_iff hs]
    intro h link
    rw [view_bones hj hb, hb]
    exact h link

theorem retyped_keeps {ty : String} {c : String × Node} {n : Node} (h1 : c.1 = "joint")
    (h : Retyped ty c.2 n) : Keeps c n := by
  refine ⟨fun e => ?_, fun _ => ⟨h.name, h.same.parentLink (by simp), h.same.childLink (by simp),
    h.same.mimic (by simp)⟩⟩
  rw [h1] at e; simp at e

theorem mass_keeps {keys : List String} {c : String × Node} {n : Node} (h1 : c.1 = "link")
    (h : SameBut keys c.2 n) (hk : "<xmlattr>" ∉ keys) : Keeps c n := by
  refine ⟨fun _ => h.name hk, fun e => ?_⟩
  rw [h1] at e; simp at e

theorem walk_index {τ : Type} {vis : Visitor τ}
    (hd : ∀ j n s, (vis.discover j n s).2.1.joints = s.1.joints ∧ (vis.discover j n s).2.1.root = s.1.root)
    (hf : ∀ j n s, (vis.finish j n s).2.1.joints = s.1.joints ∧ (vis.finish j n s).2.1.root = s.1.root)
    {k : ℕ} {link : String} {s s' : XTree × τ} {r : Res Unit}
    (h : walkJoint vis k link s = some (r, s')) :
    s'.1.joints = s.1.joints ∧ s'.1.root = s.1.root := by
  refine walkJoint_inv (I := fun t => t.1.joints = s.1.joints ∧ t.1.root = s.1.root) ?_ ?_ k link s r s'
    ⟨rfl, rfl⟩ h
  · intro j n t ht _
    exact ⟨(hd j n t).1.trans ht.1, (hd j n t).2.trans ht.2⟩
  · intro j n t ht _
    exact ⟨(hf j n t).1.trans ht.1, (hf j n t).2.trans ht.2⟩

theorem squashJoint_index [Printer] (x : XTree) (n : Node) :
    (x.squashJoint n).2.joints = x.joints ∧ (x.squashJoint n).2.root = x.root := by
  unfold XTree.squashJoint
  repeat' (first | exact ⟨rfl, rfl⟩ | split | dsimp only)

theorem squashFixed_finish_index [Printer] (j : String) (n : Node) (s : XTree × Unit) :
    (squashFixedVisitor.finish j n s).2.1.joints = s.1.joints ∧
    (squashFixedVisitor.finish j n s).2.1.root = s.1.root := by
  simp only [squashFixedVisitor]
  split
  · exact ⟨rfl, rfl⟩
  · exact squashJoint_index _ _
  · exact ⟨rfl, rfl⟩

theorem massless_finish_index [Printer] (j : String) (n : Node) (s : XTree × List String) :
    (masslessVisitor.finish j n s).2.1.joints = s.1.joints ∧
    (masslessVisitor.finish j n s).2.1.root = s.1.root := by
  simp only [masslessVisitor]
  split
  · exact ⟨rfl, rfl⟩
  · exact squashJoint_index _ _
  · split
    · exact ⟨rfl, rfl⟩
    · split <;> exact ⟨rfl, rfl⟩

theorem continuous_discover_index (j : String) (n : Node) (s : XTree × List String) :
    (continuousVisitor.discover j n s).2.1.joints = s.1.joints ∧
    (continuousVisitor.discover j n s).2.1.root = s.1.root := by
  simp only [continuousVisitor]
  split <;> exact ⟨rfl, rfl⟩

theorem edition_keeps [Printer] {x x' : XTree} (h : Edition x x') :
    Edited Keeps x.doc x'.doc ∧ x'.joints = x.joints ∧ x'.root = x.root := by
  cases h with
  | fixed name =>
    refine ⟨(C70_make_joint x name).1.mono fun c n h => retyped_keeps h.1 h.2.2, ?_⟩
    unfold XTree.makeJointFixed
    cases x.joint name <;> exact ⟨rfl, rfl⟩
  | floating name =>
    refine ⟨(C70_make_joint x name).2.mono fun c n h => retyped_keeps h.1 h.2.2, ?_⟩
    unfold XTree.makeJointFloating
    cases x.joint name <;> exact ⟨rfl, rfl⟩
  | transport pose noprune _ =>
    refine ⟨(C70_transport x pose noprune).mono ?_, transport_index x pose noprune⟩
    rintro c n (⟨h1, -, h3⟩ | ⟨h1, -, h3⟩)
    · refine ⟨fun e => ?_, fun _ => ⟨h3.name (by simp), h3.parentLink (by simp), h3.childLink (by simp),
        h3.mimic (by simp)⟩⟩
      rw [h1] at e; simp at e
    · refine ⟨fun _ => h3.name, fun e => ?_⟩
      rw [h1] at e; simp at e
  | squash name _ =>
    unfold XTree.squashJointMass
    cases hj : x.joint name with
    | none => exact ⟨Edited.refl _ _, rfl, rfl⟩
    | some j =>
      refine ⟨?_, squashJoint_index _ _⟩
      refine (squash_frame (names := []) j (Edited.refl _ _)).mono ?_
      rintro c n (⟨h1, h2⟩ | ⟨h1, -, h3⟩)
      · exact mass_keeps h1 h2 (by simp)
      · exact retyped_keeps h1 h3
  | continuous _ k r names h _ =>
    refine ⟨(C70_continuous x x' k r names h).mono fun c n h => retyped_keeps h.1 h.2.2, ?_⟩
    exact walk_index (vis := continuousVisitor) continuous_discover_index (fun _ _ _ => ⟨rfl, rfl⟩) h
  | squashFixed _ k r h _ =>
    refine ⟨((C70_squash x x' k r).1 h).mono fun c n h => mass_keeps h.1 h.2 (by simp), ?_⟩
    exact walk_index (vis := squashFixedVisitor) (fun _ _ _ => ⟨rfl, rfl⟩) squashFixed_finish_index h
  | massless _ k r names h _ =>
    refine ⟨((C70_squash x x' k r).2 names h).mono ?_, ?_⟩
    · rintro c n (⟨h1, h2⟩ | ⟨h1, -, h3⟩)
      · exact mass_keeps h1 h2 (by simp)
      · exact retyped_keeps h1 h3
    · exact walk_index (vis := masslessVisitor) (fun _ _ _ => ⟨rfl, rfl⟩) massless_finish_index h

/-! ### Change of root link -/

theorem pathToRoot_nil {x : XTree} {n : ℕ} {cur : String} (h : x.pathToRoot n cur = some (.ok [])) :
    cur = x.root := by
  cases n with
  | zero => simp [XTree.pathToRoot] at h
  | succ n =>
    by_contra hne
    simp only [XTree.pathToRoot, if_neg hne] at h
    split at h
    · simp at h
    · split at h
      · simp at h
      · simp at h
      · simp at h
      · split at h
        · simp at h
        · simp only [Option.map_eq_some_iff] at h
          obtain ⟨r, -, hr⟩ := h
          cases r <;> simp at hr

theorem reroot_inv [Printer] {x x' : XTree} (h : Inv x) {k : ℕ} {link : String} {r : Res Unit}
    (hd : x.defineAsRootLink k link = some (r, x')) (hr : r ≠ .ub) :
    Inv x' ∧ mimicData (jointsOf x'.doc) = mimicData (jointsOf x.doc) ∧ (r = .ok () → x'.root = link) := by
  obtain ⟨h1, h2, h3⟩ := h
  have hs : InStep x' ∧ (view x).defineAsRootLink k link = some (r, view x') := by
    rcases defineAsRootLink_sim h1 k link with ⟨e, -⟩ | ⟨r', y, e1, e2, e3⟩
    · rw [hd] at e; simp at e
    · rw [hd] at e1
      simp only [Option.some.injEq, Prod.mk.injEq] at e1
      obtain ⟨rfl, rfl⟩ := e1
      exact ⟨e3, e2⟩
  have hm : mimicData (jointsOf x'.doc) = mimicData (jointsOf x.doc) := by
    rcases C70_reroot x x' k link r hd with rfl | ⟨path, -, he⟩
    · rfl
    · refine edited_joints (fun j => (j.name, j.mimic)) ?_ he h1.doc.complete hs.1.doc.complete
      intro c n h hc j l hj hl
      have key : n.name = c.2.name ∧ n.mimic = c.2.mimic := by
        rcases h with ⟨-, -, h⟩ | ⟨-, -, h⟩ | ⟨e, -⟩
        · exact ⟨h.name (by simp), h.mimic (by simp)⟩
        · exact ⟨h.name (by simp), h.mimic (by simp)⟩
        · rw [hc] at e; simp at e
      obtain ⟨a1, a4⟩ := key
      rw [hj.name, hl.name] at a1
      rw [hj.mimic, hl.mimic] at a4
      rw [Option.some.inj a1, Option.map_injective (Option.some_injective _) a4]
  have ht : Consistent' (view x') ∧ (r = .ok () → (view x').root = link) := by
    have ht := hs.2
    unfold Tree.defineAsRootLink at ht
    cases hp : (view x).pathToRoot k link with
    | none => rw [hp] at ht; simp at ht
    | some q =>
      rw [hp] at ht
      cases q with
      | throws =>
        simp only [Option.some.injEq, Prod.mk.injEq] at ht
        obtain ⟨rfl, e⟩ := ht
        rw [← e]
        exact ⟨h2, by simp⟩
      | ub =>
        simp only [Option.some.injEq, Prod.mk.injEq] at ht
        exact absurd ht.1.symm hr
      | ok path =>
        simp only [Option.some.injEq] at ht
        rw [← pathToRoot_sim h1] at hp
        have hnd := pathToRoot_nodup hp
        obtain ⟨c1, c2⟩ := flipAll_consistent path.reverse h2 ht hr
        refine ⟨c1, fun hok => ?_⟩
        obtain ⟨c2, c3⟩ := c2 hok (List.nodup_reverse.2 hnd)
        cases path with
        | nil => rw [c2 rfl]; exact (pathToRoot_nil hp).symm
        | cons j path =>
          refine c3 j (by simp) link ?_
          rintro u hu rfl
          obtain ⟨n, e1, -, e2⟩ := h1.joint_of_mem hu
          have := (pathToRoot_cons hp).1
          rw [e1, Option.bind_some, e2.child] at this
          exact Option.some.inj this
  exact ⟨⟨hs.1, ht.1, mimicOrder_congr hm h3⟩, hm, ht.2⟩

/-! ### Removals -/

theorem mimicOrder_sublist {js js' : List UJoint} (h : js'.Sublist js) (hm : MimicOrder js) :
    MimicOrder js' := by
  intro ds j rest e s hs
  rw [e] at h
  obtain ⟨l1, l2, rfl, h1, h2⟩ := List.append_sublist_iff.1 h
  obtain ⟨r1, r2, rfl, h3, h4⟩ := List.cons_sublist_iff.1 h2
  obtain ⟨a, b, rfl⟩ := List.append_of_mem h3
  obtain ⟨g1, g2⟩ := hm (l1 ++ a) j (b ++ r2) (by simp) s hs
  refine ⟨g1, ?_⟩
  rintro ⟨⟨k, hk, e1⟩, k2, hk2, e2⟩
  exact g2 ⟨⟨k, List.mem_append_left _ (h1.subset hk), e1⟩, k2, List.mem_append_left _ (h1.subset hk2), e2⟩

theorem gone_inv {x x' : XTree} (h : Inv x) (hs : InStep x') (hc : Consistent' (view x')) (nm : String)
    (h1 : jointsOf x'.doc = (jointsOf x.doc).filter fun j => j.name ≠ nm)
    (h2 : (view x').joints = (view x).joints.filter fun j => j.name ≠ nm) :
    Inv x' ∧ (FileOrder x → FileOrder x') := by
  refine ⟨⟨hs, hc, by rw [h1]; exact mimicOrder_sublist List.filter_sublist h.order⟩, ?_⟩
  have e : ∀ (L : List UJoint) (link : String),
      ((((L.filter fun j => decide (j.name ≠ nm)).map bone).filter fun b => decide (b.2.1 = link)).map
        Prod.fst) = (((L.map bone).filter fun b => decide (b.2.1 = link)).map Prod.fst).filter
          fun a => decide (a ≠ nm) := by
    intro L link
    rw [← bones_filter, ← bones_filter, List.filter_map, List.filter_filter, List.filter_filter]
    congr 1
    refine List.filter_congr fun j _ => ?_
    simp only [Function.comp]
    rw [Bool.and_comm]
  rw [fileOrder_iff h.step, fileOrder_iff hs]
  intro hf link
  rw [h1, h2, e, e, hf link]

theorem rmLeaf_inv {x x' : XTree} (h : Inv x) {name : String} (hr : x.rmLeafJoint name = (.ok (), x')) :
    Inv x' ∧ (FileOrder x → FileOrder x') := by
  obtain ⟨s1, s2, s3⟩ := rmLeafJoint_sim h.step name
  rw [hr] at s1 s2 s3
  dsimp only at s1 s2 s3
  have hc : Consistent' (view x') := by
    rcases C49_leaf (view x) h.tree name with ⟨-, e⟩ | ⟨j, -, -, e⟩
    · rw [e] at s1; simp at s1
    · split_ifs at e with hk
      · rw [e] at s1; simp at s1
      · obtain ⟨t', e1, -, -, e2, -⟩ := e
        rw [s2, e1]; exact e2
  refine gone_inv h s3 hc name ?_ ?_
  · unfold XTree.rmLeafJoint at hr
    cases hj : x.joint name with
    | none => rw [hj] at hr; simp at hr
    | some n =>
      rw [hj] at hr
      dsimp only at hr
      cases hc : n.childLink with
      | none => rw [hc] at hr; simp at hr
      | some c =>
        rw [hc] at hr
        dsimp only at hr
        split_ifs at hr
        · simp at hr
        · cases hl : x.link c with
          | none => rw [hl] at hr; simp at hr
          | some l =>
            rw [hl] at hr
            simp only [Prod.mk.injEq, true_and] at hr
            rw [← hr]
            dsimp only
            rw [(eraseEl_link (eraseEl_joint h.step.doc name).1 c).2.1, (eraseEl_joint h.step.doc name).2.2]
  · rw [s2]
    unfold Tree.rmLeafJoint at s1 ⊢
    cases hj : (view x).findJoint name with
    | none => rw [hj] at s1; simp at s1
    | some j =>
      rw [hj] at s1
      dsimp only at s1 ⊢
      by_cases hk : (view x).childJoints j.child ≠ []
      · rw [if_pos hk] at s1; simp at s1
      · rw [if_neg hk] at s1 ⊢
        cases hl : (view x).findLink j.child with
        | none => rw [hl] at s1; simp at s1
        | some l =>
          dsimp only
          rw [← (findJoint_some hj).2]
          rfl

theorem rmLeaves_inv (names : List String) : ∀ {x x' : XTree}, Inv x →
    rmLeaves names x = (.ok (), x') → Inv x' ∧ (FileOrder x → FileOrder x') := by
  induction names with
  | nil =>
    intro x x' h hr
    simp only [rmLeaves, Prod.mk.injEq, true_and] at hr
    subst hr
    exact ⟨h, id⟩
  | cons nm rest ih =>
    intro x x' h hr
    simp only [rmLeaves] at hr
    rcases hl : x.rmLeafJoint nm with ⟨r, x1⟩
    rw [hl] at hr
    cases r with
    | throws => simp at hr
    | ub => simp at hr
    | ok u =>
      obtain ⟨a1, a2⟩ := rmLeaf_inv h hl
      obtain ⟨b1, b2⟩ := ih a1 hr
      exact ⟨b1, b2 ∘ a2⟩

theorem rmRoot_inv {x x' : XTree} (h : Inv x) (hr : x.rmRootJoint = (.ok (), x')) :
    Inv x' ∧ (FileOrder x → FileOrder x') := by
  obtain ⟨s1, s2, s3⟩ := rmRootJoint_sim h.step
  rw [hr] at s1 s2 s3
  dsimp only at s1 s2 s3
  have hc : Consistent' (view x') := by
    have e := C49_root (view x) h.tree
    split_ifs at e with hk
    · obtain ⟨j, -, -, t', e1, -, -, -, -, -, e2, -⟩ := e
      rw [s2, e1]; exact e2
    · rw [e] at s1; simp at s1
  unfold XTree.rmRootJoint at hr
  rw [h.step.childJoints_eq] at hr
  unfold Tree.rmRootJoint at s1 s2
  cases hcj : (view x).childJoints (view x).root with
  | nil => rw [hcj] at s1; simp at s1
  | cons j rest =>
    have hcj' : (view x).childJoints x.root = j :: rest := hcj
    rw [hcj] at s1 s2
    rw [hcj'] at hr
    cases rest with
    | cons k rest => simp at s1
    | nil =>
      dsimp only at s1 s2
      dsimp only [List.map] at hr
      refine gone_inv h s3 hc j.name ?_ ?_
      · cases hcl : (x.joint j.name).bind Node.childLink with
        | none => rw [hcl] at hr; simp at hr
        | some c =>
          cases hl : x.link x.root with
          | none => rw [hcl, hl] at hr; simp at hr
          | some l =>
            rw [hcl, hl] at hr
            simp only [Prod.mk.injEq, true_and] at hr
            rw [← hr]
            dsimp only
            rw [(eraseEl_joint (eraseEl_link h.step.doc x.root).1 j.name).2.2,
              (eraseEl_link h.step.doc x.root).2.1]
      · rw [s2]
        cases hl : (view x).findLink (view x).root with
        | none => rw [hl] at s1; simp at s1
        | some l => rfl

theorem removal_inv {x x' : XTree} (h : Inv x) (hr : Removal x x') :
    Inv x' ∧ (FileOrder x → FileOrder x') := by
  cases hr with
  | root _ =>
    by_cases e : x.rmRootJoint.1 = .ok ()
    · exact rmRoot_inv h (Prod.ext e rfl)
    · rw [(C70_remove_rejected x).1 e]; exact ⟨h, id⟩
  | leaf name _ =>
    by_cases e : (x.rmLeafJoint name).1 = .ok ()
    · exact rmLeaf_inv h (Prod.ext e rfl)
    · rw [(C70_remove_rejected x).2 name e]; exact ⟨h, id⟩
  | subtree _ k pred r hr _ =>
    unfold removeSubTreeIfJoint at hr
    cases ht : traverseJoints (listVisitor pred) k (x, 0, []) with
    | none => rw [ht] at hr; simp at hr
    | some p =>
      obtain ⟨q, s⟩ := p
      rw [ht] at hr
      cases q with
      | throws =>
        simp only [Option.some.injEq, Prod.mk.injEq] at hr
        rw [← hr.2]; exact ⟨h, id⟩
      | ub =>
        simp only [Option.some.injEq, Prod.mk.injEq] at hr
        rw [← hr.2]; exact ⟨h, id⟩
      | ok u =>
        dsimp only at hr
        obtain ⟨done, -, hd⟩ := rmLeaves_prefix s.2.2.reverse x
        rcases hl : rmLeaves s.2.2.reverse x with ⟨r', x1⟩
        rw [hl] at hr hd
        simp only [Option.some.injEq, Prod.mk.injEq] at hr
        obtain ⟨-, rfl⟩ := hr
        exact rmLeaves_inv done h hd

end AlMath.UrdfXml
