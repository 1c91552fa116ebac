import Verif.Props.C47

/-!
C49: removal of joints.
-/

namespace AlMath

open Urdf

namespace Spec

/-- Every link is below the root. Not in /repo: specification. -/
def Connected (t : Tree) : Prop := ∀ l ∈ t.links, Reach t l.name

/-- `t'` is `t` without the joints for which `P` holds and without their child links. Not in
/repo: specification. -/
structure Without (t t' : Tree) (P : UJoint → Prop) : Prop where
  joints : t'.joints.Sublist t.joints
  links : t'.links.Sublist t.links
  mem_joints : ∀ j, j ∈ t'.joints ↔ j ∈ t.joints ∧ ¬ P j
  mem_links : ∀ l, l ∈ t'.links ↔ l ∈ t.links ∧ ¬ ∃ j ∈ t.joints, P j ∧ j.child = l.name

/-- The joint is matched, or below a matched joint. Not in /repo: specification. -/
def AtOrBelow (t : Tree) (pred : UJoint → Bool) (j : UJoint) : Prop :=
  ∃ k ∈ t.joints, pred k = true ∧ Relation.ReflTransGen (Up t) j.child k.child

end Spec

open Spec

/-! ### Consistency -/

theorem find_child {t : Tree} (hc : Consistent' t) {l : String} (h : ∃ x ∈ t.links, x.name = l) :
    ∃ x ∈ t.links, x.name = l ∧ t.findLink l = some x := by
  obtain ⟨x, hx, rfl⟩ := h
  cases hf : t.findLink x.name with
  | none =>
    have := List.find?_eq_none.1 hf x hx
    simp at this
  | some y =>
    have h1 := List.find?_some hf
    have h2 := List.mem_of_find?_eq_some hf
    exact ⟨y, h2, by simpa using h1, rfl⟩

theorem findJoint_some {t : Tree} {n : String} {j : UJoint} (h : t.findJoint n = some j) :
    j ∈ t.joints ∧ j.name = n :=
  ⟨List.mem_of_find?_eq_some h, by simpa using List.find?_some h⟩

theorem findJoint_none {t : Tree} {n : String} : t.findJoint n = none ↔ ∀ j ∈ t.joints, j.name ≠ n := by
  simp [Tree.findJoint, List.find?_eq_none]

theorem findLink_some {t : Tree} {n : String} {l : ULink} (h : t.findLink n = some l) :
    l ∈ t.links ∧ l.name = n :=
  ⟨List.mem_of_find?_eq_some h, by simpa using List.find?_some h⟩

theorem childJoints_mem {t : Tree} {l : String} {j : UJoint} :
    j ∈ t.childJoints l ↔ j ∈ t.joints ∧ j.parent = l := by
  simp [Tree.childJoints]

theorem erase_without {t : Tree} (hc : Consistent' t) {j : UJoint} (hj : j ∈ t.joints) :
    Without t (t.erase j.name j.child) (· = j) := by
  refine ⟨List.filter_sublist, List.filter_sublist, ?_, ?_⟩
  · intro k
    simp only [Tree.erase, List.mem_filter, decide_eq_true_eq]
    constructor
    · rintro ⟨h1, h2⟩
      exact ⟨h1, fun e => h2 (by rw [e])⟩
    · rintro ⟨h1, h2⟩
      exact ⟨h1, fun e => h2 (List.inj_on_of_nodup_map hc.joints_nodup h1 hj e)⟩
  · intro l
    simp only [Tree.erase, List.mem_filter, decide_eq_true_eq]
    constructor
    · rintro ⟨h1, h2⟩
      refine ⟨h1, ?_⟩
      rintro ⟨k, -, rfl, e⟩
      exact h2 e.symm
    · rintro ⟨h1, h2⟩
      exact ⟨h1, fun e => h2 ⟨j, hj, rfl, e.symm⟩⟩

theorem erase_leaf_consistent {t : Tree} (hc : Consistent' t) {j : UJoint} (hj : j ∈ t.joints)
    (hleaf : ∀ k ∈ t.joints, k.parent ≠ j.child) : Consistent' (t.erase j.name j.child) := by
  have hw := erase_without hc hj
  refine ⟨hc.links_nodup.sublist (hw.links.map _), hc.joints_nodup.sublist (hw.joints.map _), ?_, ?_,
    hc.one_parent.sublist (hw.joints.map _), ?_, ?_, ?_⟩
  · intro k hk
    obtain ⟨hk1, hk2⟩ := (hw.mem_joints k).1 hk
    obtain ⟨l, hl, e⟩ := hc.parents k hk1
    refine ⟨l, (hw.mem_links l).2 ⟨hl, ?_⟩, e⟩
    rintro ⟨i, -, rfl, e'⟩
    exact hleaf k hk1 (by rw [e', e])
  · intro k hk
    obtain ⟨hk1, hk2⟩ := (hw.mem_joints k).1 hk
    obtain ⟨l, hl, e⟩ := hc.children k hk1
    refine ⟨l, (hw.mem_links l).2 ⟨hl, ?_⟩, e⟩
    rintro ⟨i, -, rfl, e'⟩
    exact hk2 (List.inj_on_of_nodup_map hc.one_parent hk1 hj (by rw [e', e]))
  · obtain ⟨l, hl, e⟩ := hc.root_mem
    refine ⟨l, (hw.mem_links l).2 ⟨hl, ?_⟩, e⟩
    rintro ⟨i, -, rfl, e'⟩
    exact hc.root_not_child i hj (by rw [e', e])
  · intro k hk
    exact hc.root_not_child k ((hw.mem_joints k).1 hk).1
  · intro l hl hne
    obtain ⟨hl1, hl2⟩ := (hw.mem_links l).1 hl
    obtain ⟨k, hk, e⟩ := hc.others_child l hl1 hne
    exact ⟨k, (hw.mem_joints k).2 ⟨hk, fun e' => hl2 ⟨j, hj, rfl, by rw [← e', e]⟩⟩, e⟩

/-! ### C49: leaf -/

/-- `rm_leaf_joint` throws exactly when there is no such joint or it is not a leaf, and then
changes nothing; otherwise it removes exactly the joint and its link. The result is still
consistent, and connected if the tree was. -/
theorem C49_leaf (t : Tree) (hc : Consistent' t) (name : String) :
    ((∀ j ∈ t.joints, j.name ≠ name) ∧ t.rmLeafJoint name = (.throws, t)) ∨
    ∃ j ∈ t.joints, j.name = name ∧
      if ∃ k ∈ t.joints, k.parent = j.child then t.rmLeafJoint name = (.throws, t)
      else ∃ t', t.rmLeafJoint name = (.ok (), t') ∧ Without t t' (· = j) ∧ t'.root = t.root ∧
        Consistent' t' ∧ (Connected t → Connected t') := by
  cases hf : t.findJoint name with
  | none => exact Or.inl ⟨findJoint_none.1 hf, by simp [Tree.rmLeafJoint, hf]⟩
  | some j =>
    obtain ⟨hj, rfl⟩ := findJoint_some hf
    refine Or.inr ⟨j, hj, rfl, ?_⟩
    split_ifs with h
    · have : t.childJoints j.child ≠ [] := by
        obtain ⟨k, hk, e⟩ := h
        exact List.ne_nil_of_mem (childJoints_mem.2 ⟨hk, e⟩)
      simp [Tree.rmLeafJoint, hf, this]
    · have hnil : t.childJoints j.child = [] := by
        rw [List.eq_nil_iff_forall_not_mem]
        intro k hk
        exact h ⟨k, childJoints_mem.1 hk⟩
      obtain ⟨x, hx, hxn, hfx⟩ := find_child hc (hc.children j hj)
      have hleaf : ∀ k ∈ t.joints, k.parent ≠ j.child := fun k hk e => h ⟨k, hk, e⟩
      have hw := erase_without hc hj
      refine ⟨t.erase j.name j.child, by simp [Tree.rmLeafJoint, hf, hnil, hfx, hxn], hw, rfl,
        erase_leaf_consistent hc hj hleaf, ?_⟩
      intro hcon l hl
      obtain ⟨hl1, hl2⟩ := (hw.mem_links l).1 hl
      have hr := hcon l hl1
      have hne : l.name ≠ j.child := fun e => hl2 ⟨j, hj, rfl, e.symm⟩
      generalize l.name = x at hr hne
      unfold Reach at hr ⊢
      induction hr using Relation.ReflTransGen.head_induction_on with
      | refl => exact .refl
      | head hs _ ih =>
        obtain ⟨k, hk, rfl, rfl⟩ := hs
        refine .head ⟨k, (hw.mem_joints k).2 ⟨hk, fun e => hne (by rw [e])⟩, rfl, rfl⟩ (ih ?_)
        exact hleaf k hk

/-! ### C49: root -/

open Classical in
/-- `rm_root_joint` throws exactly when the root link has not exactly one child joint, and then
changes nothing; otherwise it removes exactly that joint and the root link, and the child link
becomes the root. The result is still consistent, and connected if the tree was. -/
theorem C49_root (t : Tree) (hc : Consistent' t) :
    if ∃! j, j ∈ t.joints ∧ j.parent = t.root then
      ∃ j ∈ t.joints, j.parent = t.root ∧ ∃ t', t.rmRootJoint = (.ok (), t') ∧
        t'.root = j.child ∧ t'.joints.Sublist t.joints ∧ t'.links.Sublist t.links ∧
        (∀ k, k ∈ t'.joints ↔ k ∈ t.joints ∧ k ≠ j) ∧
        (∀ l, l ∈ t'.links ↔ l ∈ t.links ∧ l.name ≠ t.root) ∧
        Consistent' t' ∧ (Connected t → Connected t')
    else t.rmRootJoint = (.throws, t) := by
  have hnd : (t.childJoints t.root).Nodup := (List.Nodup.of_map _ hc.joints_nodup).filter _
  split_ifs with h
  · obtain ⟨j, ⟨hj, hp⟩, hu⟩ := h
    have hch : t.childJoints t.root = [j] := by
      have hmem : j ∈ t.childJoints t.root := childJoints_mem.2 ⟨hj, hp⟩
      have hall : ∀ k ∈ t.childJoints t.root, k = j := fun k hk => hu k (childJoints_mem.1 hk)
      match hcj : t.childJoints t.root, hnd, hmem, hall with
      | [a], _, _, hall => rw [hall a (by simp)]
      | a :: b :: l, hnd, _, hall =>
        have ha := hall a (by simp)
        have hb := hall b (by simp)
        rw [ha, hb] at hnd
        simp at hnd
    obtain ⟨x, hx, hxn, hfx⟩ := find_child hc hc.root_mem
    have hmj : ∀ k, k ∈ (t.erase j.name t.root).joints ↔ k ∈ t.joints ∧ k ≠ j := by
      intro k
      simp only [Tree.erase, List.mem_filter, decide_eq_true_eq]
      constructor
      · rintro ⟨h1, h2⟩
        exact ⟨h1, fun e => h2 (by rw [e])⟩
      · rintro ⟨h1, h2⟩
        exact ⟨h1, fun e => h2 (List.inj_on_of_nodup_map hc.joints_nodup h1 hj e)⟩
    have hml : ∀ l, l ∈ (t.erase j.name t.root).links ↔ l ∈ t.links ∧ l.name ≠ t.root := by
      intro l
      simp [Tree.erase]
    have hsj : (t.erase j.name t.root).joints.Sublist t.joints := List.filter_sublist
    have hsl : (t.erase j.name t.root).links.Sublist t.links := List.filter_sublist
    refine ⟨j, hj, hp, { t.erase j.name t.root with root := j.child },
      by simp [Tree.rmRootJoint, hch, hfx, hxn], rfl, hsj, hsl, hmj, hml, ?_, ?_⟩
    · refine ⟨hc.links_nodup.sublist (hsl.map _), hc.joints_nodup.sublist (hsj.map _), ?_, ?_,
        hc.one_parent.sublist (hsj.map _), ?_, ?_, ?_⟩
      · intro k hk
        obtain ⟨hk1, hk2⟩ := (hmj k).1 hk
        obtain ⟨l, hl, e⟩ := hc.parents k hk1
        exact ⟨l, (hml l).2 ⟨hl, fun e' => hk2 (hu k ⟨hk1, by rw [← e, e']⟩)⟩, e⟩
      · intro k hk
        obtain ⟨hk1, hk2⟩ := (hmj k).1 hk
        obtain ⟨l, hl, e⟩ := hc.children k hk1
        exact ⟨l, (hml l).2 ⟨hl, fun e' => hc.root_not_child k hk1 (by rw [← e, e'])⟩, e⟩
      · obtain ⟨l, hl, e⟩ := hc.children j hj
        exact ⟨l, (hml l).2 ⟨hl, fun e' => hc.root_not_child j hj (by rw [← e, e'])⟩, e⟩
      · intro k hk e
        obtain ⟨hk1, hk2⟩ := (hmj k).1 hk
        exact hk2 (List.inj_on_of_nodup_map hc.one_parent hk1 hj e)
      · intro l hl hne
        obtain ⟨hl1, hl2⟩ := (hml l).1 hl
        obtain ⟨k, hk, e⟩ := hc.others_child l hl1 hl2
        exact ⟨k, (hmj k).2 ⟨hk, fun e' => hne (by rw [← e, e'])⟩, e⟩
    · intro hcon l hl
      obtain ⟨hl1, hl2⟩ := (hml l).1 hl
      have hr := hcon l hl1
      generalize l.name = x at hr hl2
      unfold Reach at hr ⊢
      induction hr using Relation.ReflTransGen.head_induction_on with
      | refl => exact absurd rfl hl2
      | head hs _ ih =>
        obtain ⟨k, hk, rfl, rfl⟩ := hs
        by_cases hkj : k = j
        · subst hkj
          exact .refl
        · refine .head ⟨k, (hmj k).2 ⟨hk, hkj⟩, rfl, rfl⟩ (ih ?_)
          exact fun e => hkj (hu k ⟨hk, e⟩)
  · match hcj : t.childJoints t.root with
    | [] => simp [Tree.rmRootJoint, hcj]
    | [j] =>
      exfalso
      apply h
      have hm : ∀ k, k ∈ t.joints ∧ k.parent = t.root ↔ k = j := by
        intro k
        rw [← childJoints_mem, hcj, List.mem_singleton]
      exact ⟨j, (hm j).2 rfl, fun k hk => (hm k).1 hk⟩
    | a :: b :: l => simp [Tree.rmRootJoint, hcj]

/-! ### The trace of a traversal as a function -/

/-- The visitor that records its calls. Helper of the proofs. Not in /repo: specification. -/
def recorder (d : UJoint → Bool) : Visitor (List Event) where
  discover j s := (.ok (d j), s ++ [.disc j])
  finish j s := (.ok (), s ++ [.fin j])

theorem recorder_decides (d : UJoint → Bool) : Decides (recorder d) d := by
  intro j s b s' h
  simp only [recorder, Prod.mk.injEq, Res.ok.injEq] at h
  exact h.1.symm

theorem recorder_run (d : UJoint → Bool) (tr s : List Event) :
    runCalls (recorder d) tr s = (.ok (), s ++ tr) := by
  induction tr generalizing s with
  | nil => simp [runCalls]
  | cons e tr ih =>
    cases e with
    | disc j => simp only [runCalls, recorder]; exact (ih _).trans (by simp)
    | fin j => simp only [runCalls, recorder]; exact (ih _).trans (by simp)

theorem traces (t : Tree) (hc : Consistent' t) (d : UJoint → Bool) :
    ∃ T : String → List Event,
      (∀ l, Reach t l → T l = (t.childJoints l).flatMap (block d fun j => T j.child)) ∧
      (∀ l, Reach t l → Calls t d l (T l)) ∧
      ∀ l, Reach t l → ∃ n0, ∀ n ≥ n0, ∀ (σ : Type) (v : Visitor σ), Decides v d → ∀ s,
        walkJoint v t n l s = some (runCalls v (T l) s) := by
  classical
  have h := walk_calls t hc d
  choose T hT using h
  refine ⟨fun l => if hl : Reach t l then T l hl else [], ?_, ?_, ?_⟩
  · intro l hl
    have hch : ∀ j ∈ t.childJoints l, Reach t j.child := by
      intro j hj
      obtain ⟨h1, h2⟩ := childJoints_mem.1 hj
      exact reach_child h1 (by rw [h2]; exact hl)
    obtain ⟨n0, hn0⟩ := (hT l hl).2
    have hex : ∃ n1, ∀ n ≥ n1, ∀ j ∈ t.childJoints l, ∀ s, walkJoint (recorder d) t n j.child s =
        some (runCalls (recorder d) (if hl : Reach t j.child then T j.child hl else []) s) := by
      generalize t.childJoints l = js at hch
      induction js with
      | nil => exact ⟨0, by simp⟩
      | cons j js ih =>
        obtain ⟨n1, h1⟩ := ih (fun k hk => hch k (by simp [hk]))
        have hj := hch j (by simp)
        obtain ⟨n2, h2⟩ := (hT j.child hj).2
        refine ⟨max n1 n2, fun n hn k hk s => ?_⟩
        rcases List.mem_cons.1 hk with rfl | hk
        · rw [dif_pos hj]
          exact h2 n (le_trans (le_max_right _ _) hn) _ _ (recorder_decides d) s
        · exact h1 n (le_trans (le_max_left _ _) hn) k hk s
    obtain ⟨n1, hn1⟩ := hex
    have e1 := hn0 (max n0 n1 + 1) (by omega) _ _ (recorder_decides d) []
    rw [walkJoint, walkList_run (recorder d) d (recorder_decides d) _
      (fun j => if hl : Reach t j.child then T j.child hl else []) _
      (fun j hj s => hn1 _ (le_max_right _ _) j hj s), recorder_run, recorder_run] at e1
    simp only [Option.some.injEq, Prod.mk.injEq, List.nil_append, true_and] at e1
    dsimp only
    rw [dif_pos hl]
    exact e1.symm
  · intro l hl
    dsimp only
    rw [dif_pos hl]
    exact (hT l hl).1
  · intro l hl
    dsimp only
    rw [dif_pos hl]
    exact (hT l hl).2

/-! ### C49: subtrees -/

/-- The discovered joints of a trace. Helper of the proofs. Not in /repo: specification. -/
def discs (tr : List Event) : List UJoint :=
  tr.filterMap fun
    | .disc j => some j
    | .fin _ => none

theorem discs_append (a b : List Event) : discs (a ++ b) = discs a ++ discs b := by
  simp [discs]

theorem discs_disc (j : UJoint) (a : List Event) : discs (.disc j :: a) = j :: discs a := rfl

theorem discs_fin (j : UJoint) (a : List Event) : discs (.fin j :: a) = discs a := rfl

theorem discs_mem (j : UJoint) (a : List Event) : j ∈ discs a ↔ Event.disc j ∈ a := by
  induction a with
  | nil => simp [discs]
  | cons e a ih =>
    cases e with
    | disc k => rw [discs_disc, List.mem_cons, List.mem_cons, ih]; simp
    | fin k => rw [discs_fin, ih]; simp

theorem discs_nodup {a : List Event} (h : a.Nodup) : (discs a).Nodup := by
  induction a with
  | nil => simp [discs]
  | cons e a ih =>
    rw [List.nodup_cons] at h
    cases e with
    | disc k =>
      rw [discs_disc, List.nodup_cons, discs_mem]
      exact ⟨h.1, ih h.2⟩
    | fin k => rw [discs_fin]; exact ih h.2

/-- The link is below a matched joint. Helper of the proofs. Not in /repo: specification. -/
def Marked (t : Tree) (pred : UJoint → Bool) (l : String) : Prop :=
  ∃ k ∈ t.joints, pred k = true ∧ Relation.ReflTransGen (Up t) l k.child

theorem marked_child {t : Tree} (hc : Consistent' t) (pred : UJoint → Bool) {j : UJoint}
    (hj : j ∈ t.joints) :
    Marked t pred j.child ↔ pred j = true ∨ Marked t pred j.parent := by
  constructor
  · rintro ⟨k, hk, hp, h⟩
    rcases Relation.ReflTransGen.cases_head h with e | ⟨x, hx, hxk⟩
    · rw [List.inj_on_of_nodup_map hc.one_parent hj hk e]
      exact Or.inl hp
    · rw [up_unique hc hx ⟨j, hj, rfl, rfl⟩] at hxk
      exact Or.inr ⟨k, hk, hp, hxk⟩
  · rintro (hp | ⟨k, hk, hp, h⟩)
    · exact ⟨j, hj, hp, .refl⟩
    · exact ⟨k, hk, hp, .head ⟨j, hj, rfl, rfl⟩ h⟩

theorem listVisitor_decides (pred : UJoint → Bool) : Decides (listVisitor pred) fun _ => true := by
  intro j s b s' h
  simp only [listVisitor, Prod.mk.injEq, Res.ok.injEq] at h
  exact h.1.symm

open Classical in
theorem listVisitor_run {t : Tree} (hc : Consistent' t) (pred : UJoint → Bool)
    (T : String → List Event)
    (hT : ∀ l, Reach t l → T l = (t.childJoints l).flatMap (block (fun _ => true) fun j => T j.child))
    (l : String) (hl : Reach t l) :
    ∀ (lev : ℤ) (names : List String), 0 ≤ lev → (0 < lev ↔ Marked t pred l) →
      runCalls (listVisitor pred) (T l) (lev, names) =
        (.ok (), lev, names ++ ((discs (T l)).filter fun j => Marked t pred j.child).map UJoint.name) := by
  refine tree_induction hc (fun l => ∀ (lev : ℤ) (names : List String), 0 ≤ lev →
    (0 < lev ↔ Marked t pred l) → runCalls (listVisitor pred) (T l) (lev, names) = (.ok (), lev,
      names ++ ((discs (T l)).filter fun j => Marked t pred j.child).map UJoint.name)) ?_ l hl
  intro l hl ih lev names hlev hm
  rw [hT l hl]
  have hmem : ∀ j ∈ t.childJoints l, j ∈ t.joints ∧ j.parent = l := fun j hj => childJoints_mem.1 hj
  generalize t.childJoints l = js at hmem
  induction js generalizing names with
  | nil => simp [runCalls, discs]
  | cons j js ihj =>
    obtain ⟨hj, hp⟩ := hmem j (by simp)
    have hmj : Marked t pred j.child ↔ pred j = true ∨ Marked t pred l := by
      rw [marked_child hc pred hj, hp]
    rw [List.flatMap_cons, runCalls_append, discs_append, List.filter_append, List.map_append]
    have hlev' : 0 ≤ (if pred j then lev + 1 else lev) := by split_ifs <;> omega
    have hm' : 0 < (if pred j then lev + 1 else lev) ↔ Marked t pred j.child := by
      rw [hmj, ← hm]
      split_ifs with h
      · simp only [h, true_or, iff_true]; omega
      · simp [h]
    have hone : runCalls (listVisitor pred) (block (fun _ => true) (fun j => T j.child) j) (lev, names)
        = (.ok (), lev, names ++ ((discs (block (fun _ => true) (fun j => T j.child) j)).filter
          fun j => Marked t pred j.child).map UJoint.name) := by
      unfold block
      rw [runCalls, discs_disc, discs_append, if_pos rfl, discs_fin]
      simp only [listVisitor]
      rw [runCalls_append]
      have := ih j hj hp _ (if (if pred j then lev + 1 else lev) > 0 then names ++ [j.name] else names)
        hlev' hm'
      simp only [listVisitor] at this
      rw [this]
      simp only [runCalls]
      have hback : (if pred j = true then (if pred j = true then lev + 1 else lev) - 1
          else (if pred j = true then lev + 1 else lev)) = lev := by
        split_ifs <;> omega
      rw [hback, if_pos hlev]
      have hd : discs [] = [] := rfl
      rw [hd, List.append_nil, List.filter_cons]
      by_cases hM : Marked t pred j.child
      · rw [if_pos (hm'.2 hM), if_pos (by simpa using hM)]
        simp
      · rw [if_neg (fun h => hM (hm'.1 h)), if_neg (by simpa using hM)]
    rw [hone]
    simp only
    rw [ihj _ (fun k hk => hmem k (by simp [hk]))]
    simp

theorem rmLeaves_spec (L : List UJoint) (t : Tree) (hc : Consistent' t) (hL : L.Nodup)
    (hmem : ∀ j ∈ L, j ∈ t.joints)
    (hord : ∀ a j b, L = a ++ j :: b → ∀ k ∈ t.joints, k.parent = j.child → k ∈ a) :
    ∃ t', rmLeaves (L.map UJoint.name) t = (.ok (), t') ∧ Without t t' (· ∈ L) ∧ t'.root = t.root ∧
      Consistent' t' ∧ (Connected t → Connected t') := by
  induction L generalizing t with
  | nil =>
    exact ⟨t, rfl, ⟨.refl _, .refl _, by simp, by simp⟩, rfl, hc, id⟩
  | cons j L ih =>
    have hj := hmem j (by simp)
    rw [List.nodup_cons] at hL
    rcases C49_leaf t hc j.name with ⟨h, -⟩ | ⟨j', hj', ename, h⟩
    · exact absurd rfl (h j hj)
    have := List.inj_on_of_nodup_map hc.joints_nodup hj' hj ename
    subst this
    rw [if_neg] at h
    · obtain ⟨t1, e1, hw, hr, hc1, hcon1⟩ := h
      have hmem1 : ∀ k ∈ L, k ∈ t1.joints := by
        intro k hk
        refine (hw.mem_joints k).2 ⟨hmem k (by simp [hk]), ?_⟩
        rintro rfl
        exact hL.1 hk
      obtain ⟨t', e2, hw', hr', hc', hcon'⟩ := ih t1 hc1 hL.2 hmem1 (by
        intro a k b e i hi hik
        obtain ⟨hi1, hi2⟩ := (hw.mem_joints i).1 hi
        have := hord (j' :: a) k b (by rw [e]; rfl) i hi1 hik
        rcases List.mem_cons.1 this with h | h
        · exact absurd h hi2
        · exact h)
      refine ⟨t', ?_, ⟨hw'.joints.trans hw.joints, hw'.links.trans hw.links, ?_, ?_⟩, hr'.trans hr, hc',
        fun h => hcon' (hcon1 h)⟩
      · rw [List.map_cons, rmLeaves, e1]
        exact e2
      · intro k
        rw [hw'.mem_joints, hw.mem_joints, List.mem_cons]
        tauto
      · intro l
        rw [hw'.mem_links, hw.mem_links]
        constructor
        · rintro ⟨⟨h1, h2⟩, h3⟩
          refine ⟨h1, ?_⟩
          rintro ⟨k, hk, hkL, e⟩
          rcases List.mem_cons.1 hkL with hkj | hkL
          · exact h2 ⟨k, hk, hkj, e⟩
          · exact h3 ⟨k, hmem1 k hkL, hkL, e⟩
        · rintro ⟨h1, h2⟩
          refine ⟨⟨h1, ?_⟩, ?_⟩
          · rintro ⟨k, hk, rfl, e⟩
            exact h2 ⟨k, hk, by simp, e⟩
          · rintro ⟨k, hk, hkL, e⟩
            exact h2 ⟨k, ((hw.mem_joints k).1 hk).1, by simp [hkL], e⟩
    · rintro ⟨k, hk, e⟩
      have := hord [] j' L rfl k hk e
      simp at this

/-- `removeSubTreeIfJoint` never throws: it removes exactly the joints at or below a matching
joint (among those below the root) and their child links, and returns their names without
repetition, each joint before those below it. The result is still consistent, and connected if
the tree was. (The bound `n` is not in the code: the call ends for any bound large enough.) -/
theorem C49_subtree (t : Tree) (hc : Consistent' t) (pred : UJoint → Bool) :
    ∃ n0 names t', (∀ n ≥ n0, removeSubTreeIfJoint n pred t = some (.ok names, t')) ∧
      Without t t' (fun j => Reach t j.child ∧ AtOrBelow t pred j) ∧ t'.root = t.root ∧
      Consistent' t' ∧ (Connected t → Connected t') ∧ names.Nodup ∧
      (∀ x, x ∈ names ↔ ∃ j ∈ t.joints, j.name = x ∧ Reach t j.child ∧ AtOrBelow t pred j) ∧
      ∀ j k, j.name ∈ names → j ∈ t.joints → k ∈ t.joints → k.parent = j.child →
        [j.name, k.name].Sublist names := by
  classical
  obtain ⟨T, hT, hC, hW⟩ := traces t hc fun _ => true
  have hr : Reach t t.root := .refl
  have hC0 := hC _ hr
  obtain ⟨n0, hn0⟩ := hW _ hr
  set D := (discs (T t.root)).filter fun j => Marked t pred j.child with hD
  have hDmem : ∀ j, j ∈ D ↔ j ∈ t.joints ∧ Reach t j.child ∧ AtOrBelow t pred j := by
    intro j
    rw [hD, List.mem_filter, discs_mem]
    constructor
    · rintro ⟨h1, h2⟩
      have hj := ((hC0.mem_disc j).1 h1).1
      exact ⟨hj, (C47_all_visited t hc _ hC0 j hj).1.1 h1, of_decide_eq_true h2⟩
    · rintro ⟨h1, h2, h3⟩
      exact ⟨(C47_all_visited t hc _ hC0 j h1).1.2 h2, decide_eq_true h3⟩
  have hDnd : D.Nodup := (discs_nodup hC0.nodup).filter _
  have hnd : (D.map UJoint.name).Nodup :=
    List.Nodup.map_on (fun x hx y hy e => List.inj_on_of_nodup_map hc.joints_nodup
      ((hDmem x).1 hx).1 ((hDmem y).1 hy).1 e) hDnd
  have hpair : ∀ j k, j ∈ D → k ∈ t.joints → k.parent = j.child → [j, k].Sublist D := by
    intro j k hj hk hjk
    obtain ⟨h1, h2, h3⟩ := (hDmem j).1 hj
    have hv : Visited t (fun _ => true) t.root j :=
      (hC0.mem_disc j).1 ((C47_all_visited t hc _ hC0 j h1).1.2 h2)
    have hs := (C47_parent_first t _ _ hC0 j k hv rfl hk hjk).1
    have hs2 : [j, k].Sublist (discs (T t.root)) := by
      have := hs.filterMap (fun e : Event => match e with | .disc j => some j | .fin _ => none)
      simpa [discs] using this
    have hmk : Marked t pred k.child := by
      rw [marked_child hc pred hk, hjk]
      exact Or.inr h3
    have hmj : Marked t pred j.child := h3
    have := hs2.filter fun j => decide (Marked t pred j.child)
    simpa [List.filter_cons, hmk, hmj] using this
  have hrun := listVisitor_run hc pred T hT t.root hr 0 [] le_rfl (by
    simp only [lt_irrefl, false_iff]
    rintro ⟨k, hk, -, h⟩
    rcases Relation.ReflTransGen.cases_head h with e | ⟨x, ⟨i, hi, e, -⟩, -⟩
    · exact hc.root_not_child k hk e.symm
    · exact hc.root_not_child i hi e)
  rw [List.nil_append] at hrun
  obtain ⟨t', e, hw, hr', hc', hcon⟩ := rmLeaves_spec D.reverse t hc (List.nodup_reverse.2 hDnd)
    (fun j hj => ((hDmem j).1 (List.mem_reverse.1 hj)).1) (by
      intro a j b e k hk hjk
      have e' : D = b.reverse ++ j :: a.reverse := by
        have := congrArg List.reverse e
        simpa using this
      have hj : j ∈ D := by rw [e']; simp
      have hs := hpair j k hj hk hjk
      rw [e', List.sublist_append_iff] at hs
      obtain ⟨l1, l2, e1, h1, h2⟩ := hs
      rcases l1 with _ | ⟨x, l1⟩
      · rw [List.nil_append] at e1
        rw [← e1] at h2
        have := List.cons_sublist_cons.1 h2
        simpa using this
      · exfalso
        rw [List.cons_append, List.cons.injEq] at e1
        have hx : j ∈ b.reverse := h1.subset (by rw [e1.1]; simp)
        rw [e', List.nodup_append] at hDnd
        exact hDnd.2.2 _ hx _ (by simp) rfl)
  refine ⟨n0, D.map UJoint.name, t', ?_, ?_, hr', hc', hcon, hnd, ?_, ?_⟩
  · intro n hn
    have h1 := hn0 n hn _ _ (listVisitor_decides pred) (0, [])
    rw [hrun] at h1
    simp only [removeSubTreeIfJoint, traverseJoints, h1]
    rw [List.map_reverse] at e
    rw [e]
    rfl
  · refine ⟨hw.joints, hw.links, ?_, ?_⟩
    · intro j
      rw [hw.mem_joints, List.mem_reverse, hDmem]
      tauto
    · intro l
      rw [hw.mem_links]
      simp only [List.mem_reverse, hDmem]
      constructor
      · rintro ⟨h1, h2⟩
        exact ⟨h1, fun ⟨j, hj, h3, h4⟩ => h2 ⟨j, hj, ⟨hj, h3⟩, h4⟩⟩
      · rintro ⟨h1, h2⟩
        exact ⟨h1, fun ⟨j, hj, h3, h4⟩ => h2 ⟨j, hj, h3.2, h4⟩⟩
  · intro x
    rw [List.mem_map]
    constructor
    · rintro ⟨j, hj, rfl⟩
      obtain ⟨h1, h2⟩ := (hDmem j).1 hj
      exact ⟨j, h1, rfl, h2⟩
    · rintro ⟨j, h1, rfl, h2⟩
      exact ⟨j, (hDmem j).2 ⟨h1, h2⟩, rfl⟩
  · intro j k hj hj' hk hjk
    obtain ⟨i, hi, e'⟩ := List.mem_map.1 hj
    have := List.inj_on_of_nodup_map hc.joints_nodup ((hDmem i).1 hi).1 hj' e'
    subst this
    exact (hpair i k hi hk hjk).map UJoint.name

/-! ### Mimic references -/

/-- A tree with two leaves, one of which mimics the other. Not in /repo: specification. -/
def mimicTree : Tree :=
  ⟨[⟨"r", [], [], []⟩, ⟨"a", [], [], []⟩, ⟨"b", [], [], []⟩],
   [⟨"A", some .revolute, "r", "a", none, none, none⟩,
    ⟨"B", some .revolute, "r", "b", none, none, some "A"⟩], "r"⟩

/-- Removal does not look at mimic references: removing a mimicked joint succeeds and leaves a
tree in which the reference is dangling, on which `is_mimic_tree_flat` is undefined. -/
theorem C49_mimic_dangling : Consistent' mimicTree ∧ Connected mimicTree ∧
    mimicTree.isMimicTreeFlat = .ok true ∧
    ∃ t', mimicTree.rmLeafJoint "A" = (.ok (), t') ∧ t'.isMimicTreeFlat = .ub := by
  refine ⟨?_, ?_, ?_, ?_⟩
  · constructor <;> simp [mimicTree]
  · intro l hl
    simp [mimicTree] at hl
    rcases hl with rfl | rfl | rfl
    · exact .refl
    · exact .single ⟨⟨"A", some .revolute, "r", "a", none, none, none⟩, by simp [mimicTree], rfl, rfl⟩
    · exact .single ⟨⟨"B", some .revolute, "r", "b", none, none, some "A"⟩, by simp [mimicTree], rfl, rfl⟩
  · simp [mimicTree, Tree.isMimicTreeFlat, Tree.mimicFlat, Tree.findJoint]
  · refine ⟨mimicTree.erase "A" "a", ?_, ?_⟩
    · simp [mimicTree, Tree.rmLeafJoint, Tree.findJoint, Tree.findLink, Tree.childJoints]
    · simp [mimicTree, Tree.erase, Tree.isMimicTreeFlat, Tree.mimicFlat, Tree.findJoint]

/-- The hypotheses hold. -/
example : Consistent' mimicTree := C49_mimic_dangling.1

end AlMath
