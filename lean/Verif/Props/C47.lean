import Verif.Props.C45
import Mathlib.Data.List.Basic
import Mathlib.Data.List.Pairwise

/-!
C47: traversal of the joints of a kinematic tree.
-/

namespace AlMath

open Urdf

namespace Spec

/-- A call that the traversal makes to the visitor. Not in /repo: specification. -/
inductive Event where
  | disc (j : UJoint)
  | fin (j : UJoint)

/-- One can go down from link `a` to link `b` through a joint whose discovery returned `true`.
Not in /repo: specification. -/
def Open (t : Tree) (d : UJoint → Bool) (a b : String) : Prop :=
  ∃ k ∈ t.joints, k.parent = a ∧ k.child = b ∧ d k = true

/-- The joint is below the link `l` and no joint between them was pruned. Not in /repo:
specification. -/
def Visited (t : Tree) (d : UJoint → Bool) (l : String) (j : UJoint) : Prop :=
  j ∈ t.joints ∧ Relation.ReflTransGen (Open t d) l j.parent

/-- The calls made for the joints below link `l`: every joint that is not pruned is discovered
once and finished once; between both come exactly the calls for the joints below it; a joint is
finished before its next siblings are discovered. Not in /repo: specification. -/
structure Calls (t : Tree) (d : UJoint → Bool) (l : String) (tr : List Event) : Prop where
  mem_disc : ∀ j, Event.disc j ∈ tr ↔ Visited t d l j
  mem_fin : ∀ j, Event.fin j ∈ tr ↔ Visited t d l j
  nodup : tr.Nodup
  bracket : ∀ j, Visited t d l j → ∃ a m c, tr = a ++ (.disc j :: m ++ .fin j :: c) ∧
    ∀ k, (Event.disc k ∈ m ↔ d j = true ∧ Visited t d j.child k) ∧
      (Event.fin k ∈ m ↔ d j = true ∧ Visited t d j.child k)
  siblings : ∀ j k, Visited t d l j → [j, k].Sublist (t.childJoints j.parent) →
    [Event.fin j, Event.disc k].Sublist tr

/-- Making calls in turn, up to the first exception. Not in /repo: specification. -/
def runCalls {σ : Type} (v : Visitor σ) : List Event → σ → Res Unit × σ
  | [], s => (.ok (), s)
  | .disc j :: l, s =>
    match v.discover j s with
    | (.ok _, s1) => runCalls v l s1
    | (.throws, s1) => (.throws, s1)
    | (.ub, s1) => (.ub, s1)
  | .fin j :: l, s =>
    match v.finish j s with
    | (.ok (), s1) => runCalls v l s1
    | (.throws, s1) => (.throws, s1)
    | (.ub, s1) => (.ub, s1)

/-- The visitor prunes according to `d`. Not in /repo: specification. -/
def Decides {σ : Type} (v : Visitor σ) (d : UJoint → Bool) : Prop :=
  ∀ j s b s', v.discover j s = (.ok b, s') → b = d j

/-- The link is below the root. Not in /repo: specification. -/
def Reach (t : Tree) (l : String) : Prop := Relation.ReflTransGen (Up t) l t.root

end Spec

open Spec

/-! ### Induction on a tree -/

theorem up_unique {t : Tree} (hc : Consistent' t) {l a b : String} (ha : Up t l a) (hb : Up t l b) :
    a = b := by
  obtain ⟨j, hj, rfl, rfl⟩ := ha
  obtain ⟨k, hk, e, rfl⟩ := hb
  have := List.inj_on_of_nodup_map hc.one_parent hk hj e
  rw [this]

theorem no_cycle {t : Tree} (hc : Consistent' t) {l : String} (hr : Reach t l) :
    ¬ Relation.TransGen (Up t) l l := by
  unfold Reach at hr
  induction hr using Relation.ReflTransGen.head_induction_on with
  | refl =>
    intro h
    obtain ⟨x, ⟨j, hj, e, -⟩, -⟩ := Relation.TransGen.head'_iff.1 h
    exact hc.root_not_child j hj e
  | head hstep _ ih =>
    intro h
    obtain ⟨x, hx, hxl⟩ := Relation.TransGen.head'_iff.1 h
    rw [← up_unique hc hstep hx] at hxl
    exact ih (Relation.TransGen.tail' hxl hstep)

theorem reach_child {t : Tree} {j : UJoint} (hj : j ∈ t.joints) (h : Reach t j.parent) :
    Reach t j.child := Relation.ReflTransGen.head ⟨j, hj, rfl, rfl⟩ h

theorem reach_mem {t : Tree} (hc : Consistent' t) {l : String} (h : Reach t l) :
    l ∈ t.links.map ULink.name := by
  rcases Relation.ReflTransGen.cases_head h with e | ⟨x, ⟨j, hj, e, -⟩, -⟩
  · obtain ⟨k, hk, e'⟩ := hc.root_mem
    exact List.mem_map.2 ⟨k, hk, e'.trans e.symm⟩
  · obtain ⟨k, hk, e'⟩ := hc.children j hj
    exact List.mem_map.2 ⟨k, hk, e'.trans e⟩

/-- Induction from the leaves up. -/
theorem tree_induction {t : Tree} (hc : Consistent' t) (P : String → Prop)
    (h : ∀ l, Reach t l → (∀ j ∈ t.joints, j.parent = l → P j.child) → P l) (l : String)
    (hl : Reach t l) : P l := by
  let N := {n : String // n ∈ t.links.map ULink.name ∧ Reach t n}
  haveI : Finite N :=
    ((List.finite_toSet (t.links.map ULink.name)).subset (fun _ h => h.1)).to_subtype
  let R : N → N → Prop := fun a b => Relation.TransGen (Up t) a.1 b.1
  haveI : IsTrans N R := ⟨fun a b c h1 h2 => h1.trans h2⟩
  haveI : Std.Irrefl R := ⟨fun a h => no_cycle hc a.2.2 h⟩
  have wf : WellFounded R := Finite.wellFounded_of_trans_of_irrefl R
  have key : ∀ a : N, P a.1 := by
    intro a
    induction a using wf.induction with
    | _ a ih =>
      refine h a.1 a.2.2 ?_
      intro j hj e
      have hr : Reach t j.child := reach_child hj (by rw [e]; exact a.2.2)
      exact ih ⟨j.child, reach_mem hc hr, hr⟩ (.single ⟨j, hj, rfl, e⟩)
  exact key ⟨l, reach_mem hc hl, hl⟩

/-! ### Running calls -/

theorem runCalls_append {σ : Type} (v : Visitor σ) (a b : List Event) (s : σ) :
    runCalls v (a ++ b) s =
      match runCalls v a s with
      | (.ok (), s1) => runCalls v b s1
      | (.throws, s1) => (.throws, s1)
      | (.ub, s1) => (.ub, s1) := by
  induction a generalizing s with
  | nil => rfl
  | cons e a ih =>
    cases e with
    | disc j =>
      simp only [List.cons_append, runCalls]
      rcases v.discover j s with ⟨_ | _ | _, s1⟩
      · exact ih s1
      · rfl
      · rfl
    | fin j =>
      simp only [List.cons_append, runCalls]
      rcases v.finish j s with ⟨_ | _ | _, s1⟩
      · exact ih s1
      · rfl
      · rfl

/-- The calls for a joint. Helper of the proofs. Not in /repo: specification. -/
def block (d : UJoint → Bool) (sub : UJoint → List Event) (j : UJoint) : List Event :=
  .disc j :: ((if d j then sub j else []) ++ [.fin j])

theorem walkList_run {σ : Type} (v : Visitor σ) (d : UJoint → Bool) (hd : Decides v d)
    (recur : String → σ → Option (Res Unit × σ)) (sub : UJoint → List Event) (js : List UJoint)
    (h : ∀ j ∈ js, ∀ s, recur j.child s = some (runCalls v (sub j) s)) (s : σ) :
    walkList v recur js s = some (runCalls v (js.flatMap (block d sub)) s) := by
  induction js generalizing s with
  | nil => rfl
  | cons j js ih =>
    have ih := ih (fun k hk => h k (by simp [hk]))
    rw [List.flatMap_cons, block, walkList, List.cons_append, runCalls]
    rcases hdj : v.discover j s with ⟨b | _ | _, s1⟩
    · have hb := hd j s b s1 hdj
      subst hb
      simp only [List.append_assoc]
      rw [runCalls_append]
      cases hdb : d j with
      | true =>
        simp only [if_true]
        rw [h j (by simp) s1]
        rcases runCalls v (sub j) s1 with ⟨_ | _ | _, s2⟩
        · simp only [List.cons_append, List.nil_append, runCalls]
          rcases v.finish j s2 with ⟨_ | _ | _, s3⟩
          · exact ih s3
          · rfl
          · rfl
        · rfl
        · rfl
      | false =>
        simp only [Bool.false_eq_true, if_false, runCalls, List.cons_append, List.nil_append]
        rcases v.finish j s1 with ⟨_ | _ | _, s3⟩
        · exact ih s3
        · rfl
        · rfl
    · rfl
    · rfl

theorem walkList_mono {σ : Type} (v : Visitor σ) {f g : String → σ → Option (Res Unit × σ)}
    (h : ∀ l s r, f l s = some r → g l s = some r) (js : List UJoint) (s : σ) (r : Res Unit × σ)
    (hr : walkList v f js s = some r) : walkList v g js s = some r := by
  induction js generalizing s with
  | nil => exact hr
  | cons j js ih =>
    rw [walkList] at hr ⊢
    revert hr
    rcases v.discover j s with ⟨b | _ | _, s1⟩ <;> intro hr
    · simp only at hr ⊢
      have hi : ∀ r, (if b = true then f j.child s1 else some (.ok (), s1)) = some r →
          (if b = true then g j.child s1 else some (.ok (), s1)) = some r := by
        intro r hr
        split_ifs at hr ⊢
        · exact h _ _ _ hr
        · exact hr
      cases hx : (if b = true then f j.child s1 else some (.ok (), s1)) with
      | none => rw [hx] at hr; cases hr
      | some r1 =>
        rw [hx] at hr
        rw [hi _ hx]
        rcases r1 with ⟨_ | _ | _, s2⟩
        · simp only at hr ⊢
          revert hr
          rcases v.finish j s2 with ⟨_ | _ | _, s3⟩ <;> intro hr
          · exact ih s3 hr
          · exact hr
          · exact hr
        · exact hr
        · exact hr
    · exact hr
    · exact hr

/-- A larger bound on the depth of the recursion does not change the result. -/
theorem walk_mono {σ : Type} (v : Visitor σ) (t : Tree) {n m : ℕ} (hnm : n ≤ m) (l : String) (s : σ)
    (r : Res Unit × σ) (h : walkJoint v t n l s = some r) : walkJoint v t m l s = some r := by
  induction n generalizing m l s r with
  | zero => simp [walkJoint] at h
  | succ n ih =>
    obtain ⟨m, rfl⟩ : ∃ k, m = k + 1 := ⟨m - 1, by omega⟩
    rw [walkJoint] at h ⊢
    exact walkList_mono v (fun l s r hr => ih (by omega) l s r hr) _ _ _ h

/-! ### Visited joints -/

theorem visited_iff (t : Tree) (d : UJoint → Bool) (l : String) (j : UJoint) :
    Visited t d l j ↔ j ∈ t.childJoints l ∨
      ∃ k ∈ t.childJoints l, d k = true ∧ Visited t d k.child j := by
  simp only [Tree.childJoints, List.mem_filter, decide_eq_true_eq]
  constructor
  · rintro ⟨hj, h⟩
    rcases Relation.ReflTransGen.cases_head h with e | ⟨x, ⟨k, hk, rfl, rfl, hd⟩, hx⟩
    · exact Or.inl ⟨hj, e.symm⟩
    · exact Or.inr ⟨k, ⟨hk, rfl⟩, hd, hj, hx⟩
  · rintro (⟨hj, rfl⟩ | ⟨k, ⟨hk, rfl⟩, hd, hj, h⟩)
    · exact ⟨hj, .refl⟩
    · exact ⟨hj, .head ⟨k, hk, rfl, rfl, hd⟩ h⟩

theorem visited_up {t : Tree} {d : UJoint → Bool} {l : String} {j : UJoint} (h : Visited t d l j) :
    Relation.ReflTransGen (Up t) j.parent l := by
  obtain ⟨-, h⟩ := h
  generalize j.parent = x at h
  induction h with
  | refl => exact .refl
  | tail _ hs ih =>
    obtain ⟨k, hk, rfl, rfl, -⟩ := hs
    exact .head ⟨k, hk, rfl, rfl⟩ ih

theorem not_visited_self {t : Tree} (hc : Consistent' t) {d : UJoint → Bool} {j : UJoint}
    (hj : j ∈ t.joints) (hr : Reach t j.parent) : ¬ Visited t d j.child j := by
  intro h
  exact no_cycle hc (reach_child hj hr) (.head' ⟨j, hj, rfl, rfl⟩ (visited_up h))

theorem up_comparable {t : Tree} (hc : Consistent' t) {x a b : String}
    (ha : Relation.ReflTransGen (Up t) x a) (hb : Relation.ReflTransGen (Up t) x b) :
    Relation.ReflTransGen (Up t) a b ∨ Relation.ReflTransGen (Up t) b a := by
  induction ha using Relation.ReflTransGen.head_induction_on with
  | refl => exact Or.inl hb
  | head hs h ih =>
    rcases Relation.ReflTransGen.cases_head hb with rfl | ⟨y, hy, hyb⟩
    · exact Or.inr (.head hs h)
    · rw [← up_unique hc hs hy] at hyb
      exact ih hyb

/-- The joint is the given one or visited below it. Helper of the proofs. Not in /repo:
specification. -/
theorem up_of_mem {t : Tree} {d : UJoint → Bool} {j k : UJoint} (hk : k ∈ t.joints)
    (h : k = j ∨ Visited t d j.child k) : Relation.ReflTransGen (Up t) k.child j.child := by
  rcases h with rfl | h
  · exact .refl
  · exact .head ⟨k, hk, rfl, rfl⟩ (visited_up h)

theorem siblings_disjoint {t : Tree} (hc : Consistent' t) {d : UJoint → Bool} {j j' k : UJoint}
    (hj : j ∈ t.joints) (hj' : j' ∈ t.joints) (hr : Reach t j.parent) (hp : j.parent = j'.parent)
    (hk : k ∈ t.joints) (h : k = j ∨ Visited t d j.child k) (h' : k = j' ∨ Visited t d j'.child k) :
    j = j' := by
  have key : ∀ a b : UJoint, a ∈ t.joints → b ∈ t.joints → Reach t a.parent → a.parent = b.parent →
      Relation.ReflTransGen (Up t) a.child b.child → a = b := by
    intro a b ha hb hra hab h
    rcases Relation.ReflTransGen.cases_head h with e | ⟨y, hy, hyb⟩
    · exact List.inj_on_of_nodup_map hc.one_parent ha hb e
    · have hya : y = a.parent := up_unique hc hy ⟨a, ha, rfl, rfl⟩
      rw [hya, hab] at hyb
      exact absurd (Relation.TransGen.head' ⟨b, hb, rfl, rfl⟩ hyb)
        (no_cycle hc (reach_child hb (hab ▸ hra)))
  rcases up_comparable hc (up_of_mem hk h) (up_of_mem hk h') with h1 | h1
  · exact key j j' hj hj' hr hp h1
  · exact (key j' j hj' hj (hp ▸ hr) hp.symm h1).symm

/-! ### The trace -/

theorem mem_block_disc {t : Tree} {d : UJoint → Bool} {sub : UJoint → List Event} {j k : UJoint}
    (h : ∀ k, Event.disc k ∈ sub j ↔ Visited t d j.child k) :
    Event.disc k ∈ block d sub j ↔ k = j ∨ d j = true ∧ Visited t d j.child k := by
  unfold block
  cases hd : d j <;> simp [h]

theorem mem_block_fin {t : Tree} {d : UJoint → Bool} {sub : UJoint → List Event} {j k : UJoint}
    (h : ∀ k, Event.fin k ∈ sub j ↔ Visited t d j.child k) :
    Event.fin k ∈ block d sub j ↔ k = j ∨ d j = true ∧ Visited t d j.child k := by
  unfold block
  cases hd : d j <;> simp [h, or_comm]

theorem sublist_flatMap_of_mem {α β : Type} (f : α → List β) {l : List α} {a : α} (h : a ∈ l) :
    (f a).Sublist (l.flatMap f) := by
  obtain ⟨x, y, rfl⟩ := List.append_of_mem h
  rw [List.flatMap_append, List.flatMap_cons]
  exact ((List.sublist_append_left _ _).trans (List.sublist_append_right _ _))

theorem calls_flatMap {t : Tree} (hc : Consistent' t) (d : UJoint → Bool) {l : String}
    (hl : Reach t l) (sub : UJoint → List Event)
    (h : ∀ j ∈ t.childJoints l, Calls t d j.child (sub j)) :
    Calls t d l ((t.childJoints l).flatMap (block d sub)) := by
  have hmem : ∀ j, j ∈ t.childJoints l ↔ j ∈ t.joints ∧ j.parent = l := by
    intro j; simp [Tree.childJoints]
  have md : ∀ j, Event.disc j ∈ (t.childJoints l).flatMap (block d sub) ↔ Visited t d l j := by
    intro j
    rw [visited_iff, List.mem_flatMap]
    constructor
    · rintro ⟨k, hk, hj⟩
      rcases (mem_block_disc (h k hk).mem_disc).1 hj with rfl | hj
      · exact Or.inl hk
      · exact Or.inr ⟨k, hk, hj⟩
    · rintro (hj | ⟨k, hk, hj⟩)
      · exact ⟨j, hj, (mem_block_disc (h j hj).mem_disc).2 (Or.inl rfl)⟩
      · exact ⟨k, hk, (mem_block_disc (h k hk).mem_disc).2 (Or.inr hj)⟩
  have mf : ∀ j, Event.fin j ∈ (t.childJoints l).flatMap (block d sub) ↔ Visited t d l j := by
    intro j
    rw [visited_iff, List.mem_flatMap]
    constructor
    · rintro ⟨k, hk, hj⟩
      rcases (mem_block_fin (h k hk).mem_fin).1 hj with rfl | hj
      · exact Or.inl hk
      · exact Or.inr ⟨k, hk, hj⟩
    · rintro (hj | ⟨k, hk, hj⟩)
      · exact ⟨j, hj, (mem_block_fin (h j hj).mem_fin).2 (Or.inl rfl)⟩
      · exact ⟨k, hk, (mem_block_fin (h k hk).mem_fin).2 (Or.inr hj)⟩
  have hnodup : (t.childJoints l).Nodup := (List.Nodup.of_map _ hc.joints_nodup).filter _
  refine ⟨md, mf, ?_, ?_, ?_⟩
  · rw [List.nodup_flatMap]
    refine ⟨?_, ?_⟩
    · intro j hj
      obtain ⟨hj1, hj2⟩ := (hmem j).1 hj
      have hns := not_visited_self (d := d) hc hj1 (by rw [hj2]; exact hl)
      have hC := h j hj
      unfold block
      rw [List.nodup_cons, List.nodup_append]
      cases hd : d j
      · simp
      · refine ⟨?_, ?_, by simp, ?_⟩
        · simp [hC.mem_disc, hns]
        · simpa using hC.nodup
        · intro a ha b hb e
          rw [List.mem_singleton.1 hb] at e
          subst e
          simp only [if_true, hC.mem_fin] at ha
          exact hns ha
    · refine List.Pairwise.imp_of_mem ?_ hnodup
      intro j k hj hk hne
      obtain ⟨hj1, hj2⟩ := (hmem j).1 hj
      obtain ⟨hk1, hk2⟩ := (hmem k).1 hk
      intro e he1 he2
      have go : ∀ x : UJoint, (x = j ∨ d j = true ∧ Visited t d j.child x) →
          (x = k ∨ d k = true ∧ Visited t d k.child x) → False := by
        intro x h1 h2
        have hx : x ∈ t.joints := by
          rcases h1 with rfl | h1
          exacts [hj1, h1.2.1]
        exact hne (siblings_disjoint hc hj1 hk1 (by rw [hj2]; exact hl) (hj2.trans hk2.symm) hx
          (h1.imp id And.right) (h2.imp id And.right))
      cases e with
      | disc x =>
        exact go x ((mem_block_disc (h j hj).mem_disc).1 he1)
          ((mem_block_disc (h k hk).mem_disc).1 he2)
      | fin x =>
        exact go x ((mem_block_fin (h j hj).mem_fin).1 he1)
          ((mem_block_fin (h k hk).mem_fin).1 he2)
  · intro j hj
    rcases (visited_iff t d l j).1 hj with hj | ⟨k, hk, hd, hj⟩
    · obtain ⟨x, y, e⟩ := List.append_of_mem hj
      refine ⟨x.flatMap (block d sub), if d j then sub j else [], y.flatMap (block d sub), ?_, ?_⟩
      · rw [e, List.flatMap_append, List.flatMap_cons]
        simp [block]
      · intro k
        cases hd : d j <;> simp [(h j hj).mem_disc, (h j hj).mem_fin]
    · obtain ⟨x, y, e⟩ := List.append_of_mem hk
      obtain ⟨a, m, c, e', hm⟩ := (h k hk).bracket j hj
      refine ⟨x.flatMap (block d sub) ++ .disc k :: a, m, c ++ .fin k :: y.flatMap (block d sub),
        ?_, hm⟩
      rw [e, List.flatMap_append, List.flatMap_cons]
      simp [block, hd, e']
  · intro j k hj hjk
    rcases (visited_iff t d l j).1 hj with hj | ⟨k', hk', hd, hj⟩
    · obtain ⟨-, hjp⟩ := (hmem j).1 hj
      rw [hjp] at hjk
      have := hjk.flatMap (block d sub)
      refine List.Sublist.trans ?_ this
      simp only [List.flatMap_cons, List.flatMap_nil, List.append_nil]
      rw [show [Event.fin j, Event.disc k] = [Event.fin j] ++ [Event.disc k] from rfl]
      refine List.Sublist.append ?_ ?_
      · simp [block]
      · simp [block]
    · refine ((h k' hk').siblings j k hj hjk).trans ?_
      refine List.Sublist.trans ?_ (sublist_flatMap_of_mem (block d sub) hk')
      unfold block
      rw [hd, if_pos rfl]
      exact ((List.sublist_append_left _ _).trans (List.sublist_cons_self _ _))

theorem walk_calls (t : Tree) (hc : Consistent' t) (d : UJoint → Bool) (l : String)
    (hl : Reach t l) :
    ∃ tr, Calls t d l tr ∧ ∃ n0, ∀ n ≥ n0, ∀ (σ : Type) (v : Visitor σ), Decides v d → ∀ s,
      walkJoint v t n l s = some (runCalls v tr s) := by
  refine tree_induction hc (fun l => ∃ tr, Calls t d l tr ∧ ∃ n0, ∀ n ≥ n0, ∀ (σ : Type)
    (v : Visitor σ), Decides v d → ∀ s, walkJoint v t n l s = some (runCalls v tr s)) ?_ l hl
  intro l hl ih
  have hmem : ∀ j ∈ t.childJoints l, j ∈ t.joints ∧ j.parent = l := by
    intro j hj; simpa [Tree.childJoints] using hj
  have ih' : ∀ j : {j : UJoint // j ∈ t.childJoints l}, ∃ tr, Calls t d j.1.child tr ∧
      ∃ n0, ∀ n ≥ n0, ∀ (σ : Type) (v : Visitor σ), Decides v d → ∀ s,
        walkJoint v t n j.1.child s = some (runCalls v tr s) :=
    fun j => ih j.1 (hmem j.1 j.2).1 (hmem j.1 j.2).2
  choose tr htr n0 hn0 using ih'
  classical
  let sub : UJoint → List Event := fun j => if hj : j ∈ t.childJoints l then tr ⟨j, hj⟩ else []
  have hsub : ∀ j (hj : j ∈ t.childJoints l), sub j = tr ⟨j, hj⟩ := fun j hj => dif_pos hj
  refine ⟨(t.childJoints l).flatMap (block d sub), calls_flatMap hc d hl sub ?_, ?_⟩
  · intro j hj
    rw [hsub j hj]
    exact htr ⟨j, hj⟩
  · let m : UJoint → ℕ := fun j => if hj : j ∈ t.childJoints l then n0 ⟨j, hj⟩ else 0
    refine ⟨((t.childJoints l).map m).sum + 1, ?_⟩
    intro n hn σ v hv s
    obtain ⟨n, rfl⟩ : ∃ k, n = k + 1 := ⟨n - 1, by omega⟩
    rw [walkJoint]
    apply walkList_run v d hv
    intro j hj s
    rw [hsub j hj]
    refine hn0 ⟨j, hj⟩ n ?_ σ v hv s
    have h1 : m j ≤ ((t.childJoints l).map m).sum :=
      List.single_le_sum (by simp) _ (List.mem_map.2 ⟨j, hj, rfl⟩)
    have h2 : m j = n0 ⟨j, hj⟩ := dif_pos hj
    omega

/-! ### C47 -/

/-- The traversal of a consistent tree ends, and makes exactly the calls that it must, for any
visitor, up to the first exception. (The bound `n` on the depth of the recursion is not in the
code: the traversal ends for any bound large enough.) -/
theorem C47_traverse (t : Tree) (hc : Consistent' t) (d : UJoint → Bool) :
    ∃ tr, Calls t d t.root tr ∧ ∃ n0, ∀ n ≥ n0, ∀ (σ : Type) (v : Visitor σ), Decides v d → ∀ s,
      traverseJoints v t n s = some (runCalls v tr s) :=
  walk_calls t hc d t.root .refl

/-- The bound on the depth of the recursion does not matter: two bounds that are large enough give
the same result. -/
theorem C47_bound {σ : Type} (v : Visitor σ) (t : Tree) (n m : ℕ) (s : σ) (r r' : Res Unit × σ)
    (h : traverseJoints v t n s = some r) (h' : traverseJoints v t m s = some r') : r = r' := by
  have h1 := walk_mono v t (le_max_left n m) _ _ _ h
  have h2 := walk_mono v t (le_max_right n m) _ _ _ h'
  rw [h1] at h2
  exact Option.some.inj h2

/-- A parent is discovered before its children and finished after them. -/
theorem C47_parent_first (t : Tree) (d : UJoint → Bool) (tr : List Event)
    (h : Calls t d t.root tr) (j k : UJoint) (hj : Visited t d t.root j) (hd : d j = true)
    (hk : k ∈ t.joints) (hjk : k.parent = j.child) :
    [Event.disc j, Event.disc k, Event.fin j].Sublist tr ∧
      [Event.disc j, Event.fin k, Event.fin j].Sublist tr := by
  have hv : Visited t d j.child k := ⟨hk, by rw [hjk]⟩
  obtain ⟨a, m, c, e, hm⟩ := h.bracket j hj
  have go : ∀ x ∈ m, [Event.disc j, x, Event.fin j].Sublist tr := by
    intro x hx
    rw [e]
    refine List.Sublist.trans ?_ (List.sublist_append_right _ _)
    refine List.Sublist.cons_cons _ ?_
    rw [show [x, Event.fin j] = [x] ++ [Event.fin j] from rfl]
    exact List.Sublist.append (List.singleton_sublist.2 hx) (List.singleton_sublist.2 (by simp))
  exact ⟨go _ ((hm k).1.2 ⟨hd, hv⟩), go _ ((hm k).2.2 ⟨hd, hv⟩)⟩

/-- No joint below a pruned joint is visited. -/
theorem C47_pruned (t : Tree) (hc : Consistent' t) (d : UJoint → Bool) (tr : List Event)
    (h : Calls t d t.root tr) (j k : UJoint) (hj : j ∈ t.joints) (hd : d j = false)
    (hk : Relation.ReflTransGen (Up t) k.parent j.child) :
    Event.disc k ∉ tr ∧ Event.fin k ∉ tr := by
  have key : ∀ x, Relation.ReflTransGen (Open t d) t.root x →
      ¬ Relation.ReflTransGen (Up t) x j.child := by
    intro x hx
    induction hx with
    | refl =>
      intro h
      rcases Relation.ReflTransGen.cases_head h with e | ⟨y, ⟨i, hi, e, -⟩, -⟩
      · exact hc.root_not_child j hj e.symm
      · exact hc.root_not_child i hi e
    | tail _ hs ih =>
      obtain ⟨i, hi, rfl, rfl, hdi⟩ := hs
      intro h
      rcases Relation.ReflTransGen.cases_head h with e | ⟨y, hy, hyj⟩
      · have := List.inj_on_of_nodup_map hc.one_parent hi hj e
        rw [this, hd] at hdi
        cases hdi
      · rw [up_unique hc hy ⟨i, hi, rfl, rfl⟩] at hyj
        exact ih hyj
  rw [h.mem_disc, h.mem_fin]
  exact ⟨fun hv => key _ hv.2 hk, fun hv => key _ hv.2 hk⟩

/-- Without pruning, the visited joints are those that are below the root. -/
theorem C47_all_visited (t : Tree) (hc : Consistent' t) (tr : List Event)
    (h : Calls t (fun _ => true) t.root tr)
    (j : UJoint) (hj : j ∈ t.joints) :
    (Event.disc j ∈ tr ↔ Reach t j.child) ∧ (Event.fin j ∈ tr ↔ Reach t j.child) := by
  have h1 : Visited t (fun _ => true) t.root j ↔ Reach t j.child := by
    constructor
    · rintro h
      exact reach_child hj (visited_up h)
    · intro hr
      rcases Relation.ReflTransGen.cases_head hr with e | ⟨x, hx, hxr⟩
      · exact absurd e (hc.root_not_child j hj)
      · rw [up_unique hc hx ⟨j, hj, rfl, rfl⟩] at hxr
        refine ⟨hj, ?_⟩
        generalize j.parent = y at hxr
        induction hxr using Relation.ReflTransGen.head_induction_on with
        | refl => exact .refl
        | head hs _ ih =>
          obtain ⟨k, hk, rfl, rfl⟩ := hs
          exact ih.tail ⟨k, hk, rfl, rfl, rfl⟩
  rw [h.mem_disc, h.mem_fin]
  exact ⟨h1, h1⟩

/-- In an accepted description, siblings are visited in the order of the document. -/
theorem C47_document_order (doc : List Elem) (t : Tree) (hl : load doc = .ok t)
    (d : UJoint → Bool) (tr : List Event) (h : Calls t d t.root tr) (j k : UJoint)
    (hj : Visited t d t.root j) (hp : j.parent = k.parent)
    (hjk : [j, k].Sublist (docJoints doc)) :
    [Event.fin j, Event.disc k].Sublist tr := by
  refine h.siblings j k hj ?_
  rw [(C45_consistent doc t hl).2.2.2]
  have := hjk.filter fun x => x.parent = j.parent
  simpa [hp] using this

/-- The hypotheses hold for a chain of three joints. -/
example : ∃ t, Consistent' t ∧ t.joints.length = 3 := by
  obtain ⟨t, ht⟩ := C46_valid_rejected.2.1
  have := C45_consistent _ t ht
  exact ⟨t, this.1, by rw [this.2.2.1.length_eq]; rfl⟩

end AlMath
