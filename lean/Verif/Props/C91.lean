import Verif.Model.UrdfDot
import Verif.Props.C47

/-!
C91: the kinematic tree printed as a graph.
-/

namespace AlMath

open Urdf Spec

namespace Spec

/-- An edge of a graph in the dot language. Not in /repo: specification. -/
structure Edge where
  source : String
  target : String
  label : String

/-- The statement for an edge, with the end of the line. Not in /repo: specification. -/
def Edge.statement (e : Edge) : List Char :=
  e.source.toList ++ [' ', '-', '>', ' '] ++ e.target.toList ++ [' ', '[', 'l', 'a', 'b', 'e', 'l', '='] ++
    e.label.toList ++ [']', ';', '\n']

/-- The edge of a joint. Not in /repo: specification. -/
def edge (j : UJoint) : Edge := ⟨j.parent, j.child, j.name⟩

/-- An identifier of the dot language that needs no quotes: letters, digits and underscores. (It must not begin with a
digit either.) Not in /repo: specification. -/
def Plain (s : String) : Prop := ∀ c ∈ s.toList, c.isAlphanum ∨ c = '_'

/-- An edge with such names. Not in /repo: specification. -/
def Edge.Plain (e : Edge) : Prop := Spec.Plain e.source ∧ Spec.Plain e.target ∧ Spec.Plain e.label

/-- The joints of a tree that are below the root, in the order in which they are met: each one once, parents before
children, siblings in the order of the index. Not in /repo: specification. -/
structure InOrder (t : Tree) (js : List UJoint) : Prop where
  nodup : js.Nodup
  mem : ∀ j, j ∈ js ↔ j ∈ t.joints ∧ Reach t j.parent
  parents : ∀ j ∈ js, ∀ k ∈ js, k.parent = j.child → [j, k].Sublist js
  siblings : ∀ j ∈ js, ∀ k, [j, k].Sublist (t.childJoints j.parent) → [j, k].Sublist js

end Spec

/-- The joints discovered. Helper of the proofs. Not in /repo: specification. -/
def discovered : List Event → List UJoint :=
  List.filterMap fun | .disc j => some j | .fin _ => none

/-- The joints finished. Helper of the proofs. Not in /repo: specification. -/
def finished : List Event → List UJoint :=
  List.filterMap fun | .disc _ => none | .fin j => some j

theorem runCalls_dot (tr : List Event) (s : DotState) (hs : s.doIndent = false) :
    runCalls dotVisitor tr s = (.ok (), ⟨s.depth + (discovered tr).length - (finished tr).length, false,
      s.text ++ (discovered tr).flatMap fun j => (edge j).statement⟩) := by
  induction tr generalizing s with
  | nil => obtain ⟨d, i, x⟩ := s; simp at hs; simp [runCalls, discovered, finished, hs]
  | cons e tr ih =>
    cases e with
    | disc j =>
      simp only [runCalls, dotVisitor, hs, Bool.false_eq_true, false_and, if_false]
      rw [show (Visitor.mk _ _ : Visitor DotState) = dotVisitor from rfl, ih _ rfl]
      simp only [discovered, finished, List.filterMap_cons, List.length_cons, List.flatMap_cons]
      congr 2
      · push_cast; ring
      · simp [Edge.statement, edge]
    | fin j =>
      simp only [runCalls, dotVisitor]
      rw [show (Visitor.mk _ _ : Visitor DotState) = dotVisitor from rfl, ih { s with depth := s.depth - 1 } hs]
      simp only [discovered, finished, List.filterMap_cons, List.length_cons]
      congr 2
      push_cast; ring

theorem mem_discovered {tr : List Event} {j : UJoint} : j ∈ discovered tr ↔ Event.disc j ∈ tr := by
  unfold discovered
  rw [List.mem_filterMap]
  constructor
  · rintro ⟨e, he, h⟩
    cases e with
    | disc k => simp at h; rw [← h]; exact he
    | fin k => simp at h
  · intro h; exact ⟨_, h, rfl⟩

theorem mem_finished {tr : List Event} {j : UJoint} : j ∈ finished tr ↔ Event.fin j ∈ tr := by
  unfold finished
  rw [List.mem_filterMap]
  constructor
  · rintro ⟨e, he, h⟩
    cases e with
    | fin k => simp at h; rw [← h]; exact he
    | disc k => simp at h
  · intro h; exact ⟨_, h, rfl⟩

theorem nodup_discovered {tr : List Event} (h : tr.Nodup) : (discovered tr).Nodup := by
  refine List.Nodup.filterMap ?_ h
  intro a b j ha hb
  cases a <;> cases b <;> simp_all

theorem nodup_finished {tr : List Event} (h : tr.Nodup) : (finished tr).Nodup := by
  refine List.Nodup.filterMap ?_ h
  intro a b j ha hb
  cases a <;> cases b <;> simp_all

theorem mem_of_pair_sublist {α : Type} {X c : List α} {x y : α} (h : [x, y].Sublist (X ++ x :: c)) (hx : x ∉ X) :
    y ∈ c := by
  induction X with
  | nil =>
    rcases List.sublist_cons_iff.1 h with h | ⟨r, e, h⟩
    · exact h.subset (by simp)
    · injection e with _ e; rw [← e] at h; exact h.subset (by simp)
  | cons a X ih =>
    rcases List.sublist_cons_iff.1 h with h | ⟨r, e, -⟩
    · exact ih h fun h => hx (by simp [h])
    · injection e with e; exact absurd (by simp [e]) hx

/-- The printer writes one line for each joint below the root, in the order of the traversal, and nothing else; then its
state is the one it had at the beginning. -/
theorem C91_printed (t : Tree) (hc : Consistent' t) :
    ∃ js, InOrder t js ∧ ∃ n0, ∀ n ≥ n0, ∀ text,
      traverseJoints dotVisitor t n (DotState.new text) =
        some (.ok (), DotState.new (text ++ (js.map edge).flatMap Edge.statement)) := by
  obtain ⟨tr, htr, n0, hn⟩ := C47_traverse t hc fun _ => true
  have hv : ∀ j, Visited t (fun _ => true) t.root j ↔ j ∈ t.joints ∧ Reach t j.parent := by
    intro j
    constructor
    · intro h; exact ⟨h.1, visited_up h⟩
    · rintro ⟨hj, h⟩
      exact (htr.mem_disc j).1 ((C47_all_visited t hc tr htr j hj).1.2 (reach_child hj h))
  refine ⟨discovered tr, ⟨nodup_discovered htr.nodup, fun j => ?_, ?_, ?_⟩, n0, fun n h text => ?_⟩
  · rw [mem_discovered, htr.mem_disc, hv]
  · intro j hj k hk e
    rw [mem_discovered, htr.mem_disc] at hj hk
    have := (C47_parent_first t _ tr htr j k hj rfl hk.1 e).1
    have h2 : [Event.disc j, Event.disc k].Sublist tr := List.Sublist.trans (by simp) this
    have h3 : (discovered [Event.disc j, Event.disc k]).Sublist (discovered tr) := h2.filterMap _
    exact h3
  · intro j hj k hk
    rw [mem_discovered, htr.mem_disc] at hj
    obtain ⟨a, m, c, e, -⟩ := htr.bracket j hj
    have h1 := htr.siblings j k hj hk
    have h2 : Event.disc k ∈ c := by
      apply mem_of_pair_sublist (X := a ++ Event.disc j :: m) (x := Event.fin j)
      · rw [e] at h1; simpa using h1
      · have := htr.nodup
        rw [e, ← List.append_assoc] at this
        intro h
        exact (List.disjoint_of_nodup_append this) h (by simp)
    have h3 : [Event.disc j, Event.disc k].Sublist tr := by
      rw [e]
      refine List.Sublist.trans ?_ (List.sublist_append_right _ _)
      refine List.Sublist.cons_cons _ (List.singleton_sublist.2 ?_)
      simp [h2]
    have h4 : (discovered [Event.disc j, Event.disc k]).Sublist (discovered tr) := h3.filterMap _
    exact h4
  · have hd : Decides dotVisitor fun _ => true := by
      intro j s b s' h
      unfold dotVisitor at h
      dsimp only at h
      by_cases h0 : s.doIndent = true ∧ s.depth < 0
      · rw [if_pos h0] at h; simp at h
      · rw [if_neg h0] at h; injection h with h1 h2; injection h1 with h1; exact h1.symm
    have hl : (discovered tr).length = (finished tr).length := by
      apply List.Perm.length_eq
      rw [List.perm_ext_iff_of_nodup (nodup_discovered htr.nodup) (nodup_finished htr.nodup)]
      intro j
      rw [mem_discovered, mem_finished, htr.mem_disc, htr.mem_fin]
    rw [hn n h _ _ hd, runCalls_dot _ _ rfl, hl]
    simp [DotState.new, List.flatMap_map]

/-! ### Reading the graph again -/

theorem plain_not_mem {s : String} (h : Spec.Plain s) : ' ' ∉ s.toList ∧ ']' ∉ s.toList := by
  constructor <;> intro hc <;> have := h _ hc <;> revert this <;> decide

theorem append_cons_inj {a b c d : List Char} {x : Char} (ha : x ∉ a) (hc : x ∉ c)
    (h : a ++ x :: b = c ++ x :: d) : a = c ∧ b = d := by
  induction a generalizing c with
  | nil =>
    cases c with
    | nil => injection h with _ h; exact ⟨rfl, h⟩
    | cons y c => injection h with h _; exact absurd (by simp [h]) hc
  | cons y a ih =>
    cases c with
    | nil => injection h with h _; exact absurd (by simp [h]) ha
    | cons z c =>
      injection h with h1 h2
      obtain ⟨h3, h4⟩ := ih (fun h => ha (by simp [h])) (fun h => hc (by simp [h])) h2
      exact ⟨by rw [h1, h3], h4⟩

theorem statement_inj {e f : Edge} (he : e.Plain) (hf : f.Plain) {r r' : List Char}
    (h : e.statement ++ r = f.statement ++ r') : e = f ∧ r = r' := by
  obtain ⟨s, t, l⟩ := e
  obtain ⟨s', t', l'⟩ := f
  obtain ⟨hs, ht, hl⟩ := he
  obtain ⟨hs', ht', hl'⟩ := hf
  simp only [Edge.statement, List.append_assoc, List.cons_append, List.nil_append] at h
  obtain ⟨h1, h⟩ := append_cons_inj (plain_not_mem hs).1 (plain_not_mem hs').1 h
  simp only [List.cons.injEq, true_and] at h
  obtain ⟨h2, h⟩ := append_cons_inj (plain_not_mem ht).1 (plain_not_mem ht').1 h
  simp only [List.cons.injEq, true_and] at h
  obtain ⟨h3, h4⟩ := append_cons_inj (plain_not_mem hl).2 (plain_not_mem hl').2 h
  simp only [List.cons.injEq, true_and] at h4
  rw [String.toList_inj] at h1 h2 h3
  subst h1 h2 h3
  exact ⟨rfl, h4⟩

/-- The text tells the edges, in order, if the names are plain. -/
theorem C91_read (es fs : List Edge) (he : ∀ e ∈ es, e.Plain) (hf : ∀ f ∈ fs, f.Plain)
    (h : es.flatMap Edge.statement = fs.flatMap Edge.statement) : es = fs := by
  have hne : ∀ e : Edge, ∀ r, e.statement ++ r ≠ [] := fun e r => by simp [Edge.statement]
  induction es generalizing fs with
  | nil =>
    cases fs with
    | nil => rfl
    | cons f fs => exact absurd h.symm (by rw [List.flatMap_cons]; exact hne f _)
  | cons e es ih =>
    cases fs with
    | nil => exact absurd h (by rw [List.flatMap_cons]; exact hne e _)
    | cons f fs =>
      rw [List.flatMap_cons, List.flatMap_cons] at h
      obtain ⟨h1, h2⟩ := statement_inj (he e (by simp)) (hf f (by simp)) h
      rw [h1, ih fs (fun e h => he e (by simp [h])) (fun f h => hf f (by simp [h])) h2]

/-- Two trees with plain names that are printed alike have the same edges below their roots. -/
theorem C91_same_tree (t u : Tree) (ht : Consistent' t) (hu : Consistent' u) (n : ℕ) (text : List Char)
    (hp : ∀ j ∈ t.joints, (edge j).Plain) (hq : ∀ j ∈ u.joints, (edge j).Plain)
    (st su : DotState) (h1 : traverseJoints dotVisitor t n (DotState.new text) = some (.ok (), st))
    (h2 : traverseJoints dotVisitor u n (DotState.new text) = some (.ok (), su)) (h : st.text = su.text) (e : Edge) :
    (∃ j ∈ t.joints, Reach t j.parent ∧ edge j = e) ↔ ∃ j ∈ u.joints, Reach u j.parent ∧ edge j = e := by
  obtain ⟨js, hj, n1, e1⟩ := C91_printed t ht
  obtain ⟨ks, hk, n2, e2⟩ := C91_printed u hu
  have e1 := C47_bound _ _ _ _ _ _ _ h1 (e1 (max n1 n2) (le_max_left _ _) text)
  have e2 := C47_bound _ _ _ _ _ _ _ h2 (e2 (max n1 n2) (le_max_right _ _) text)
  injection e1 with _ e1
  injection e2 with _ e2
  rw [e1, e2] at h
  have h := List.append_cancel_left h
  have := C91_read _ _ (by
    intro e he
    obtain ⟨j, hj', rfl⟩ := List.mem_map.1 he
    exact hp j ((hj.mem j).1 hj').1) (by
    intro e he
    obtain ⟨j, hj', rfl⟩ := List.mem_map.1 he
    exact hq j ((hk.mem j).1 hj').1) h
  have a : (∃ j ∈ t.joints, Reach t j.parent ∧ edge j = e) ↔ e ∈ js.map edge := by
    rw [List.mem_map]
    constructor
    · rintro ⟨j, h1, h2, h3⟩; exact ⟨j, (hj.mem j).2 ⟨h1, h2⟩, h3⟩
    · rintro ⟨j, h1, h2⟩; exact ⟨j, ((hj.mem j).1 h1).1, ((hj.mem j).1 h1).2, h2⟩
  have b : (∃ j ∈ u.joints, Reach u j.parent ∧ edge j = e) ↔ e ∈ ks.map edge := by
    rw [List.mem_map]
    constructor
    · rintro ⟨j, h1, h2, h3⟩; exact ⟨j, (hk.mem j).2 ⟨h1, h2⟩, h3⟩
    · rintro ⟨j, h1, h2⟩; exact ⟨j, ((hk.mem j).1 h1).1, ((hk.mem j).1 h1).2, h2⟩
  rw [a, b, this]

/-- A tree with two joints in a row. -/
def dotChain : Tree where
  links := [⟨"a", [], [], []⟩, ⟨"b", [], [], []⟩, ⟨"c", [], [], []⟩]
  joints := [⟨"x", some .fixed, "a", "b", none, none, none⟩, ⟨"y", some .fixed, "b", "c", none, none, none⟩]
  root := "a"

/-- A tree with one joint that has a strange name. -/
def dotStrange : Tree where
  links := [⟨"a", [], [], []⟩, ⟨"b", [], [], []⟩]
  joints := [⟨"x];\nb -> c [label=y", some .fixed, "a", "b", none, none, none⟩]
  root := "a"

theorem dotChain_consistent : Consistent' dotChain := by
  constructor <;> simp [dotChain]

theorem dotStrange_consistent : Consistent' dotStrange := by
  constructor <;> simp [dotStrange]

/-- The chain is printed as two lines; its names are plain. -/
example : Consistent' dotChain ∧ (∀ j ∈ dotChain.joints, (edge j).Plain) ∧
    (dotChain.joints.map edge).flatMap Edge.statement = "a -> b [label=x];\nb -> c [label=y];\n".toList := by
  refine ⟨dotChain_consistent, ?_, by decide⟩
  simp [dotChain, edge, Edge.Plain, Spec.Plain]

/-- Names are not quoted: a tree with one joint may be printed like a tree with two. -/
theorem C91_not_quoted : ∃ t u n s, Consistent' t ∧ Consistent' u ∧ t.joints.length = 1 ∧ u.joints.length = 2 ∧
    traverseJoints dotVisitor t n (DotState.new []) = some (.ok (), s) ∧
    traverseJoints dotVisitor u n (DotState.new []) = some (.ok (), s) := by
  refine ⟨dotStrange, dotChain, 3, DotState.new "a -> b [label=x];\nb -> c [label=y];\n".toList,
    dotStrange_consistent, dotChain_consistent, rfl, rfl, ?_, ?_⟩
  · simp [traverseJoints, walkJoint, walkList, dotStrange, Tree.childJoints, dotVisitor, DotState.new]
  · simp [traverseJoints, walkJoint, walkList, dotChain, Tree.childJoints, dotVisitor, DotState.new]

end AlMath
