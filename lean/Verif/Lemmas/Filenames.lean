import Verif.Spec.Filenames

/-!
What the editions of XML documents do, for C69.
-/

namespace AlMath.Filenames

open Spec

/-- Helper of the proofs: what an edition does. It edits the positions `P` and needs `V`. Not in /repo:
specification. -/
structure Does (op : String → Option String) (f : Edit) (P : Xml → List ℕ → Prop) (V : Xml → Prop) :
    Prop where
  keys : ∀ t p, keysAt (f t).2 p = keysAt t p
  ok : ∀ t, (f t).1 = .ok () ↔ V t ∧ ∀ p, P t p → ∀ s, textAt t p = some s → op s ≠ none
  noUb : ∀ t, (f t).1 ≠ .ub
  done : ∀ t, (f t).1 = .ok () → ∀ p, P t p → textAt (f t).2 p = (textAt t p).bind op
  part : ∀ t p, textAt (f t).2 p = textAt t p ∨
    P t p ∧ ∃ s s', textAt t p = some s ∧ op s = some s' ∧ textAt (f t).2 p = some s'

/-- Helper of the proofs: the same keys everywhere. Not in /repo: specification. -/
def SameKeys (t t' : Xml) : Prop := ∀ p, keysAt t' p = keysAt t p

theorem Does.congr {op f P V P' V'} (h : Does op f P V) (hP : ∀ t p, P' t p ↔ P t p)
    (hV : ∀ t, V' t ↔ V t) : Does op f P' V' := by
  have e1 : P' = P := by
    funext t p
    exact propext (hP t p)
  have e2 : V' = V := by
    funext t
    exact propext (hV t)
  rw [e1, e2]
  exact h

theorem does_applyValue (op : String → Option String) :
    Does op (applyValue op) (Follows []) (fun _ => True) := by
  have key : ∀ t, (∃ s, op t.text = some s ∧ applyValue op t = (.ok (), .node s t.children)) ∨
      (op t.text = none ∧ applyValue op t = (.throws, t)) := by
    intro t
    unfold applyValue
    cases h : op t.text with
    | none => exact .inr ⟨rfl, rfl⟩
    | some s => exact .inl ⟨s, rfl, rfl⟩
  have cons : ∀ (t : Xml) s i p, nodeAt (.node s t.children) (i :: p) = nodeAt t (i :: p) := fun _ _ _ _ => rfl
  constructor
  · intro t p
    rcases key t with ⟨s, -, h⟩ | ⟨-, h⟩ <;> rw [h]
    cases p with
    | nil => rfl
    | cons i p => rw [keysAt, cons]; rfl
  · intro t
    have hp : (∀ p, Follows [] t p → ∀ s, textAt t p = some s → op s ≠ none) ↔ op t.text ≠ none := by
      constructor
      · intro h
        exact h [] trivial _ rfl
      · intro h p hp s hs
        cases p with
        | nil =>
          cases hs
          exact h
        | cons i p => exact absurd hp id
    rw [hp]
    rcases key t with ⟨s, h1, h⟩ | ⟨h1, h⟩ <;> rw [h] <;> simp [h1]
  · intro t
    rcases key t with ⟨s, h1, h⟩ | ⟨h1, h⟩ <;> rw [h] <;> simp
  · intro t ht p hp
    cases p with
    | cons i p => exact absurd hp id
    | nil =>
      rcases key t with ⟨s, h1, h⟩ | ⟨h1, h⟩
      · rw [h]
        change some s = op t.text
        rw [h1]
      · rw [h] at ht
        cases ht
  · intro t p
    rcases key t with ⟨s, h1, h⟩ | ⟨h1, h⟩ <;> rw [h]
    · cases p with
      | nil => exact .inr ⟨trivial, t.text, s, rfl, h1, rfl⟩
      | cons i p => exact .inl (by rw [textAt, cons]; rfl)
    · exact .inl rfl

theorem Does.seq {op f g P Q V W} (hf : Does op f P V) (hg : Does op g Q W)
    (hPQ : ∀ t p, P t p → ¬ Q t p) (hQ : ∀ t t', SameKeys t t' → ∀ p, Q t' p ↔ Q t p)
    (hW : ∀ t t', SameKeys t t' → (W t' ↔ W t)) :
    Does op (Edit.seq f g) (fun t p => P t p ∨ Q t p) (fun t => V t ∧ W t) := by
  have key : ∀ t, ((f t).1 = .ok () ∧ Edit.seq f g t = g (f t).2) ∨
      ((f t).1 = .throws ∧ Edit.seq f g t = f t) := by
    intro t
    have h := hf.noUb t
    unfold Edit.seq
    rcases hft : f t with ⟨r, t'⟩
    rw [hft] at h
    cases r with
    | ok u => exact .inl ⟨rfl, rfl⟩
    | throws => exact .inr ⟨rfl, rfl⟩
    | ub => exact absurd rfl h
  have hk : ∀ t, SameKeys t (f t).2 := fun t => hf.keys t
  have unP : ∀ t p, ¬ P t p → textAt (f t).2 p = textAt t p := by
    intro t p hp
    rcases hf.part t p with h | ⟨h, -⟩
    · exact h
    · exact absurd h hp
  constructor
  · intro t p
    rcases key t with ⟨-, h⟩ | ⟨-, h⟩ <;> rw [h]
    · rw [hg.keys, hf.keys]
    · exact hf.keys t p
  · intro t
    rcases key t with ⟨h1, h⟩ | ⟨h1, h⟩ <;> rw [h]
    · rw [hg.ok, hW t _ (hk t)]
      obtain ⟨h2, h3⟩ := (hf.ok t).mp h1
      constructor
      · rintro ⟨h4, h5⟩
        refine ⟨⟨h2, h4⟩, ?_⟩
        rintro p (hp | hp) s hs
        · exact h3 p hp s hs
        · refine h5 p ((hQ t _ (hk t) p).mpr hp) s ?_
          rw [unP t p fun hP => hPQ t p hP hp]
          exact hs
      · rintro ⟨⟨-, h4⟩, h5⟩
        refine ⟨h4, fun p hp s hs => ?_⟩
        have hp' := (hQ t _ (hk t) p).mp hp
        rw [unP t p fun hP => hPQ t p hP hp'] at hs
        exact h5 p (.inr hp') s hs
    · rw [hf.ok]
      have h2 : ¬ (V t ∧ ∀ p, P t p → ∀ s, textAt t p = some s → op s ≠ none) := by
        rw [← hf.ok, h1]
        simp
      constructor
      · intro h3
        exact absurd h3 h2
      · rintro ⟨⟨h3, -⟩, h4⟩
        exact ⟨h3, fun p hp => h4 p (.inl hp)⟩
  · intro t
    rcases key t with ⟨-, h⟩ | ⟨-, h⟩ <;> rw [h]
    · exact hg.noUb _
    · exact hf.noUb _
  · intro t ht p hp
    rcases key t with ⟨h1, h⟩ | ⟨h1, h⟩ <;> rw [h] at ht ⊢
    · rcases hp with hp | hp
      · rcases hg.part (f t).2 p with h2 | ⟨h2, -⟩
        · rw [h2, hf.done t h1 p hp]
        · exact absurd ((hQ t _ (hk t) p).mp h2) (hPQ t p hp)
      · rw [hg.done _ ht p ((hQ t _ (hk t) p).mpr hp), unP t p fun hP => hPQ t p hP hp]
    · rw [h1] at ht
      cases ht
  · intro t p
    rcases key t with ⟨h1, h⟩ | ⟨h1, h⟩ <;> rw [h]
    · rcases hg.part (f t).2 p with h2 | ⟨h2, s, s', h3, h4, h5⟩
      · rw [h2]
        rcases hf.part t p with h6 | ⟨h6, h7⟩
        · exact .inl h6
        · exact .inr ⟨.inl h6, h7⟩
      · have h2' := (hQ t _ (hk t) p).mp h2
        rw [unP t p fun hP => hPQ t p hP h2'] at h3
        exact .inr ⟨.inr h2', s, s', h3, h4, h5⟩
    · rcases hf.part t p with h6 | ⟨h6, h7⟩
      · exact .inl h6
      · exact .inr ⟨.inl h6, h7⟩

/-- Helper of the proofs: the children an edition of children is for. Not in /repo: specification. -/
def Sel (key : String) (b : Bool) (l : List (String × Xml)) (i : ℕ) : Prop :=
  b = true → ∀ j < i, ∀ c', l[j]? ≠ some (key, c')

/-- Helper of the proofs: positions below the selected children. Not in /repo: specification. -/
def Below (key : String) (b : Bool) (P : Xml → List ℕ → Prop) (t : Xml) : List ℕ → Prop
  | [] => False
  | i :: p => ∃ c, t.children[i]? = some (key, c) ∧ Sel key b t.children i ∧ P c p

theorem follows_cons (k b ks t p) : Follows ((k, b) :: ks) t p ↔ Below k b (Follows ks) t p := by
  cases p <;> rfl

theorem nodeAt_cons (t : Xml) (i : ℕ) (p : List ℕ) {k c} (h : t.children[i]? = some (k, c)) :
    nodeAt t (i :: p) = nodeAt c p := by
  simp [nodeAt, h]

theorem nodeAt_none (t : Xml) (i : ℕ) (p : List ℕ) (h : t.children[i]? = none) :
    nodeAt t (i :: p) = none := by
  simp [nodeAt, h]

theorem does_child {op f P V} (hf : Does op f P V) (key : String) (b : Bool)
    (run : List (String × Xml) → Res Unit × List (String × Xml)) (A : List (String × Xml) → Prop)
    (none' : ∀ l (i : ℕ), l[i]? = none → (run l).2[i]? = none)
    (some' : ∀ l (i : ℕ) k c, l[i]? = some (k, c) → ∃ c', (run l).2[i]? = some (k, c') ∧
      (c' = c ∨ k = key ∧ Sel key b l i ∧ c' = (f c).2) ∧
      ((run l).1 = .ok () → k = key → Sel key b l i → c' = (f c).2))
    (ok' : ∀ l, (run l).1 = .ok () ↔ A l ∧ ∀ (i : ℕ) c, l[i]? = some (key, c) → Sel key b l i →
      (f c).1 = .ok ())
    (noUb' : ∀ l, (run l).1 ≠ .ub) :
    Does op (fun t => ((run t.children).1, .node t.text (run t.children).2)) (Below key b P)
      (fun t => A t.children ∧ ∀ (i : ℕ) c, t.children[i]? = some (key, c) → Sel key b t.children i → V c) := by
  have ch : ∀ t : Xml, (Xml.node t.text (run t.children).2).children = (run t.children).2 := fun _ => rfl
  have part : ∀ t p, textAt (.node t.text (run t.children).2) p = textAt t p ∨
      Below key b P t p ∧ ∃ s s', textAt t p = some s ∧ op s = some s' ∧
        textAt (.node t.text (run t.children).2) p = some s' := by
    intro t p
    cases p with
    | nil => exact .inl rfl
    | cons i p =>
      cases h : t.children[i]? with
      | none =>
        left
        rw [textAt, textAt, nodeAt_none _ _ _ h, nodeAt_none _ _ _ (none' _ _ h)]
      | some x =>
        obtain ⟨k, c⟩ := x
        obtain ⟨c', h1, h2, -⟩ := some' _ _ _ _ h
        rw [textAt, textAt, nodeAt_cons _ _ _ h, nodeAt_cons _ _ _ h1]
        rcases h2 with rfl | ⟨rfl, h2, rfl⟩
        · exact .inl rfl
        · rcases hf.part c p with h3 | ⟨h3, h4⟩
          · exact .inl h3
          · exact .inr ⟨⟨c, h, h2, h3⟩, h4⟩
  constructor
  · intro t p
    dsimp only
    cases p with
    | nil =>
      change some ((run t.children).2.map Prod.fst) = some (t.children.map Prod.fst)
      congr 1
      apply List.ext_getElem?
      intro i
      rw [List.getElem?_map, List.getElem?_map]
      cases h : t.children[i]? with
      | none => rw [none' _ _ h]
      | some x =>
        obtain ⟨c', h1, -⟩ := some' _ i x.1 x.2 h
        rw [h1]
        rfl
    | cons i p =>
      rw [keysAt, keysAt]
      cases h : t.children[i]? with
      | none => rw [nodeAt_none _ _ _ h, nodeAt_none _ _ _ (none' _ _ h)]
      | some x =>
        obtain ⟨k, c⟩ := x
        obtain ⟨c', h1, h2, -⟩ := some' _ _ _ _ h
        rw [nodeAt_cons _ _ _ h, nodeAt_cons _ _ _ h1]
        rcases h2 with rfl | ⟨rfl, h2, rfl⟩
        · rfl
        · exact hf.keys c p
  · intro t
    dsimp only
    rw [ok']
    constructor
    · rintro ⟨h1, h2⟩
      refine ⟨⟨h1, fun i c hi hs => ((hf.ok c).mp (h2 i c hi hs)).1⟩, ?_⟩
      intro p hp s hs
      cases p with
      | nil => exact absurd hp id
      | cons i p =>
        obtain ⟨c, h3, h4, h5⟩ := hp
        rw [textAt, nodeAt_cons _ _ _ h3] at hs
        exact ((hf.ok c).mp (h2 i c h3 h4)).2 p h5 s hs
    · rintro ⟨⟨h1, h2⟩, h3⟩
      refine ⟨h1, fun i c hi hs => (hf.ok c).mpr ⟨h2 i c hi hs, fun p hp s h4 => ?_⟩⟩
      refine h3 (i :: p) ⟨c, hi, hs, hp⟩ s ?_
      rw [textAt, nodeAt_cons _ _ _ hi]
      exact h4
  · intro t
    exact noUb' _
  · intro t ht p hp
    dsimp only at ht ⊢
    cases p with
    | nil => exact absurd hp id
    | cons i p =>
      obtain ⟨c, h3, h4, h5⟩ := hp
      obtain ⟨c', h1, -, h2⟩ := some' _ _ _ _ h3
      rw [textAt, textAt, nodeAt_cons _ _ _ h3, nodeAt_cons _ _ _ h1, h2 ht rfl h4]
      exact hf.done c (((ok' _).mp ht).2 i c h3 h4) p h5
  · exact part

theorem does_each {op f P V} (hf : Does op f P V) (key : String) :
    Does op (each key f) (Below key false P)
      (fun t => ∀ (i : ℕ) c, t.children[i]? = some (key, c) → V c) := by
  have sel : ∀ l i, Sel key false l i := fun l i h => absurd h (by simp)
  refine (does_child hf key false (eachIn key f) (fun _ => True) ?_ ?_ ?_ ?_).congr (fun _ _ => Iff.rfl)
    fun t => ⟨fun h => ⟨trivial, fun i c hi _ => h i c hi⟩, fun h i c hi => h.2 i c hi (sel _ _)⟩
  · intro l
    induction l with
    | nil => intro i _; rfl
    | cons x l ih =>
      intro i h
      obtain ⟨k, c⟩ := x
      cases i with
      | zero => simp at h
      | succ i =>
        rw [List.getElem?_cons_succ] at h
        unfold eachIn
        by_cases hk : k = key
        · rw [if_pos hk]
          rcases hfc : f c with ⟨r, c'⟩
          cases r <;> dsimp only <;> rw [List.getElem?_cons_succ]
          · exact ih i h
          · exact h
          · exact h
        · rw [if_neg hk]
          dsimp only
          rw [List.getElem?_cons_succ]
          exact ih i h
  · intro l
    induction l with
    | nil => intro i k c h; simp at h
    | cons x l ih =>
      intro i k c h
      obtain ⟨k0, c0⟩ := x
      unfold eachIn
      by_cases hk : k0 = key
      · rw [if_pos hk]
        rcases hfc : f c0 with ⟨r, c'⟩
        cases i with
        | zero =>
          rw [List.getElem?_cons_zero] at h
          cases h
          have e : c' = (f c).2 := by rw [hfc]
          cases r <;> exact ⟨c', rfl, .inr ⟨hk, sel _ _, e⟩, fun _ _ _ => e⟩
        | succ i =>
          rw [List.getElem?_cons_succ] at h
          cases r <;> dsimp only <;> rw [List.getElem?_cons_succ]
          · obtain ⟨d, h1, h2, h3⟩ := ih i k c h
            exact ⟨d, h1, h2.imp_right fun h2 => ⟨h2.1, sel _ _, h2.2.2⟩, fun h4 h5 _ => h3 h4 h5 (sel _ _)⟩
          · exact ⟨c, h, .inl rfl, fun h => by cases h⟩
          · exact ⟨c, h, .inl rfl, fun h => by cases h⟩
      · rw [if_neg hk]
        dsimp only
        cases i with
        | zero =>
          rw [List.getElem?_cons_zero] at h
          cases h
          exact ⟨c, rfl, .inl rfl, fun _ h => absurd h hk⟩
        | succ i =>
          rw [List.getElem?_cons_succ] at h ⊢
          obtain ⟨d, h1, h2, h3⟩ := ih i k c h
          exact ⟨d, h1, h2.imp_right fun h2 => ⟨h2.1, sel _ _, h2.2.2⟩, fun h4 h5 _ => h3 h4 h5 (sel _ _)⟩
  · intro l
    simp only [sel, true_and, true_imp_iff]
    induction l with
    | nil => simp [eachIn]
    | cons x l ih =>
      obtain ⟨k0, c0⟩ := x
      have split : (∀ (i : ℕ) c, ((k0, c0) :: l)[i]? = some (key, c) → (f c).1 = .ok ()) ↔
          (k0 = key → (f c0).1 = .ok ()) ∧ ∀ (i : ℕ) c, l[i]? = some (key, c) → (f c).1 = .ok () := by
        constructor
        · intro h
          exact ⟨fun hk => h 0 c0 (by rw [hk]; rfl), fun i c hi => h (i + 1) c hi⟩
        · rintro ⟨h1, h2⟩ i c hi
          cases i with
          | zero =>
            rw [List.getElem?_cons_zero] at hi
            cases hi
            exact h1 rfl
          | succ i => exact h2 i c hi
      rw [split]
      unfold eachIn
      rw [← ih]
      by_cases hk : k0 = key
      · rw [if_pos hk]
        rcases hfc : f c0 with ⟨r, c'⟩
        cases r <;> simp [hk]
      · rw [if_neg hk]
        simp [hk]
  · intro l
    induction l with
    | nil => simp [eachIn]
    | cons x l ih =>
      obtain ⟨k0, c0⟩ := x
      unfold eachIn
      by_cases hk : k0 = key
      · rw [if_pos hk]
        have := hf.noUb c0
        rcases hfc : f c0 with ⟨r, c'⟩
        rw [hfc] at this
        cases r <;> simp_all
      · rw [if_neg hk]
        exact ih

theorem sel_succ {key : String} {k c l i} (hk : k ≠ key) :
    Sel key true ((k, c) :: l) (i + 1) ↔ Sel key true l i := by
  unfold Sel
  simp only [true_imp_iff]
  constructor
  · intro h j hj c'
    exact h (j + 1) (by omega) c'
  · intro h j hj c'
    cases j with
    | zero =>
      intro h1
      rw [List.getElem?_cons_zero] at h1
      cases h1
      exact hk rfl
    | succ j => exact h j (by omega) c'

theorem not_sel_succ {key : String} {c l i} : ¬ Sel key true ((key, c) :: l) (i + 1) := by
  intro h
  exact h rfl 0 (by omega) c rfl

theorem sel_zero {key : String} {l} : Sel key true l 0 := fun _ j hj => by omega

theorem does_first {op f P V} (hf : Does op f P V) (key : String) (missing : Res Unit)
    (hm : missing ≠ .ub) :
    Does op (first key missing f) (Below key true P)
      (fun t => ((missing = .ok ()) ∨ ∃ (i : ℕ) (c : Xml), t.children[i]? = some (key, c)) ∧
        ∀ (i : ℕ) c, t.children[i]? = some (key, c) → Sel key true t.children i → V c) := by
  refine does_child hf key true (firstIn key missing f)
    (fun l => (missing = .ok ()) ∨ ∃ (i : ℕ) (c : Xml), l[i]? = some (key, c)) ?_ ?_ ?_ ?_
  · intro l
    induction l with
    | nil => intro i _; rfl
    | cons x l ih =>
      intro i h
      obtain ⟨k, c⟩ := x
      cases i with
      | zero => simp at h
      | succ i =>
        rw [List.getElem?_cons_succ] at h
        unfold firstIn
        by_cases hk : k = key
        · rw [if_pos hk]
          exact h
        · rw [if_neg hk]
          exact ih i h
  · intro l
    induction l with
    | nil => intro i k c h; simp at h
    | cons x l ih =>
      intro i k c h
      obtain ⟨k0, c0⟩ := x
      unfold firstIn
      by_cases hk : k0 = key
      · rw [if_pos hk]
        cases i with
        | zero =>
          rw [List.getElem?_cons_zero] at h
          cases h
          exact ⟨_, rfl, .inr ⟨hk, sel_zero, rfl⟩, fun _ _ _ => rfl⟩
        | succ i =>
          rw [List.getElem?_cons_succ] at h
          subst hk
          exact ⟨c, h, .inl rfl, fun _ _ h => absurd h not_sel_succ⟩
      · rw [if_neg hk]
        cases i with
        | zero =>
          rw [List.getElem?_cons_zero] at h
          cases h
          exact ⟨c, rfl, .inl rfl, fun _ h => absurd h hk⟩
        | succ i =>
          rw [List.getElem?_cons_succ] at h
          obtain ⟨d, h1, h2, h3⟩ := ih i k c h
          refine ⟨d, h1, h2.imp_right fun h2 => ⟨h2.1, (sel_succ hk).mpr h2.2.1, h2.2.2⟩, ?_⟩
          intro h4 h5 h6
          exact h3 h4 h5 ((sel_succ hk).mp h6)
  · intro l
    induction l with
    | nil => simp [firstIn]
    | cons x l ih =>
      obtain ⟨k0, c0⟩ := x
      unfold firstIn
      by_cases hk : k0 = key
      · rw [if_pos hk]
        subst hk
        constructor
        · intro h
          refine ⟨.inr ⟨0, c0, rfl⟩, fun i c hi hs => ?_⟩
          cases i with
          | zero =>
            rw [List.getElem?_cons_zero] at hi
            cases hi
            exact h
          | succ i => exact absurd hs not_sel_succ
        · rintro ⟨-, h⟩
          exact h 0 c0 rfl sel_zero
      · rw [if_neg hk]
        dsimp only
        rw [ih]
        constructor
        · rintro ⟨h1, h2⟩
          refine ⟨h1.imp_right fun ⟨i, c, hi⟩ => ⟨i + 1, c, hi⟩, fun i c hi hs => ?_⟩
          cases i with
          | zero =>
            rw [List.getElem?_cons_zero] at hi
            cases hi
            exact absurd rfl hk
          | succ i => exact h2 i c hi ((sel_succ hk).mp hs)
        · rintro ⟨h1, h2⟩
          refine ⟨h1.imp_right ?_, fun i c hi hs => h2 (i + 1) c hi ((sel_succ hk).mpr hs)⟩
          rintro ⟨i, c, hi⟩
          cases i with
          | zero =>
            rw [List.getElem?_cons_zero] at hi
            cases hi
            exact absurd rfl hk
          | succ i => exact ⟨i, c, hi⟩
  · intro l
    induction l with
    | nil => exact hm
    | cons x l ih =>
      obtain ⟨k0, c0⟩ := x
      unfold firstIn
      by_cases hk : k0 = key
      · rw [if_pos hk]
        exact hf.noUb c0
      · rw [if_neg hk]
        exact ih

theorem does_applyOp (op : String → Option String) :
    Does op (applyOp op) (Follows [("<xmlattr>", true), ("filename", true)]) (fun _ => True) := by
  refine (does_first (does_first (does_applyValue op) "filename" (.ok ()) (by simp)) "<xmlattr>" (.ok ())
    (by simp)).congr (fun t p => ?_) (by simp)
  rw [follows_cons]
  exact iff_of_eq (congrArg (fun P => Below "<xmlattr>" true P t p)
    (by funext t p; exact propext (follows_cons ..)))

theorem does_texture (op : String → Option String) :
    Does op (each "material" (first "texture" (.ok ()) (applyOp op)))
      (Follows [("material", false), ("texture", true), ("<xmlattr>", true), ("filename", true)])
      (fun _ => True) := by
  refine (does_each (does_first (does_applyOp op) "texture" (.ok ()) (by simp)) "material").congr
    (fun t p => ?_) (by simp)
  rw [follows_cons]
  exact iff_of_eq (congrArg (fun P => Below "material" false P t p)
    (by funext t p; exact propext (follows_cons ..)))

theorem keys_children {t t' : Xml} (h : SameKeys t t') (i : ℕ) :
    (t'.children[i]?).map Prod.fst = (t.children[i]?).map Prod.fst := by
  have := h []
  simp only [keysAt, nodeAt, Option.map_some, Option.some.injEq] at this
  rw [← List.getElem?_map, this, List.getElem?_map]

theorem keys_child {t t' : Xml} (h : SameKeys t t') {i : ℕ} {k c} (hc : t.children[i]? = some (k, c)) :
    ∃ c', t'.children[i]? = some (k, c') ∧ SameKeys c c' := by
  have h1 := keys_children h i
  rw [hc] at h1
  cases h2 : t'.children[i]? with
  | none => rw [h2] at h1; cases h1
  | some x =>
    obtain ⟨k', c'⟩ := x
    rw [h2] at h1
    cases h1
    refine ⟨c', rfl, fun p => ?_⟩
    have := h (i :: p)
    rwa [keysAt, keysAt, nodeAt_cons _ _ _ hc, nodeAt_cons _ _ _ h2] at this

theorem SameKeys.symm {t t' : Xml} (h : SameKeys t t') : SameKeys t' t := fun p => (h p).symm

theorem follows_keys : ∀ (ks : List (String × Bool)) (t t' : Xml), SameKeys t t' → ∀ p,
    Follows ks t p → Follows ks t' p
  | [], _, _, _, [], _ => trivial
  | [], _, _, _, _ :: _, h => absurd h id
  | _ :: _, _, _, _, [], h => absurd h id
  | (k, b) :: ks, t, t', h, i :: p, ⟨c, h1, h2, h3⟩ => by
    obtain ⟨c', h4, h5⟩ := keys_child h h1
    refine ⟨c', h4, fun hb j hj d hd => ?_, follows_keys ks c c' h5 p h3⟩
    obtain ⟨d', hd', -⟩ := keys_child h.symm hd
    exact h2 hb j hj d' hd'

theorem follows_keys_iff (ks : List (String × Bool)) (t t' : Xml) (h : SameKeys t t') (p) :
    Follows ks t' p ↔ Follows ks t p :=
  ⟨follows_keys ks t' t h.symm p, follows_keys ks t t' h p⟩

theorem follows_head {k k' : String} {b b' ks ks' t p} (h : Follows ((k, b) :: ks) t p)
    (h' : Follows ((k', b') :: ks') t p) : k = k' := by
  cases p with
  | nil => exact absurd h id
  | cons i p =>
    obtain ⟨c, h1, -⟩ := h
    obtain ⟨c', h2, -⟩ := h'
    rw [h1] at h2
    cases h2
    rfl

theorem does_visual (op : String → Option String) :
    Does op (Edit.seq (first "geometry" .throws (each "mesh" (applyOp op)))
        (each "material" (first "texture" (.ok ()) (applyOp op))))
      (fun t p => Follows [("geometry", true), ("mesh", false), ("<xmlattr>", true), ("filename", true)] t p ∨
        Follows [("material", false), ("texture", true), ("<xmlattr>", true), ("filename", true)] t p)
      (fun t => ∃ (i : ℕ) (c : Xml), t.children[i]? = some ("geometry", c)) := by
  have h1 := (does_first (does_each (does_applyOp op) "mesh") "geometry" .throws (by simp)).congr
    (P' := Follows [("geometry", true), ("mesh", false), ("<xmlattr>", true), ("filename", true)])
    (V' := fun t => ∃ (i : ℕ) (c : Xml), t.children[i]? = some ("geometry", c)) (fun t p => by
      rw [follows_cons]
      exact iff_of_eq (congrArg (fun P => Below "geometry" true P t p)
        (by funext t p; exact propext (follows_cons ..)))) (by simp)
  refine (h1.seq (does_texture op) (fun t p h h' => ?_) (fun t t' h p => follows_keys_iff _ t t' h p)
    (fun _ _ _ => Iff.rfl)).congr (fun _ _ => Iff.rfl) (by simp)
  exact absurd (follows_head h h') (by decide)

theorem below_or (k b P Q t p) : Below k b (fun t p => P t p ∨ Q t p) t p ↔
    Below k b P t p ∨ Below k b Q t p := by
  cases p with
  | nil => simp [Below]
  | cons i p =>
    constructor
    · rintro ⟨c, h1, h2, h3 | h3⟩
      · exact .inl ⟨c, h1, h2, h3⟩
      · exact .inr ⟨c, h1, h2, h3⟩
    · rintro (⟨c, h1, h2, h3⟩ | ⟨c, h1, h2, h3⟩)
      · exact ⟨c, h1, h2, .inl h3⟩
      · exact ⟨c, h1, h2, .inr h3⟩

theorem visualsHaveGeometry_iff (t : Xml) : VisualsHaveGeometry t ↔
    ∀ (i : ℕ) l, t.children[i]? = some ("link", l) → ∀ (j : ℕ) v, l.children[j]? = some ("visual", v) →
      ∃ (k : ℕ) (c : Xml), v.children[k]? = some ("geometry", c) := by
  have mem : ∀ v : Xml, "geometry" ∈ v.children.map Prod.fst ↔
      ∃ (k : ℕ) (c : Xml), v.children[k]? = some ("geometry", c) := by
    intro v
    rw [List.mem_map]
    constructor
    · rintro ⟨⟨k, c⟩, h1, rfl⟩
      obtain ⟨n, h2⟩ := List.getElem?_of_mem h1
      exact ⟨n, c, h2⟩
    · rintro ⟨n, c, h⟩
      exact ⟨_, List.mem_of_getElem? h, rfl⟩
  constructor
  · intro h i l hi j v hj
    obtain ⟨ks, h1, h2⟩ := h [i, j] ⟨l, hi, by simp, v, hj, by simp, trivial⟩
    rw [keysAt, nodeAt_cons _ _ _ hi, nodeAt_cons _ _ _ hj] at h1
    cases h1
    exact (mem v).mp h2
  · intro h p hp
    match p, hp with
    | [i, j], ⟨l, hi, _, v, hj, _, _⟩ =>
      refine ⟨v.children.map Prod.fst, ?_, (mem v).mpr (h i l hi j v hj)⟩
      rw [keysAt, nodeAt_cons _ _ _ hi, nodeAt_cons _ _ _ hj]
      rfl

theorem visualsHaveGeometry_keys (t t' : Xml) (h : SameKeys t t') :
    VisualsHaveGeometry t' ↔ VisualsHaveGeometry t := by
  unfold VisualsHaveGeometry
  simp only [follows_keys_iff _ t t' h, h _]

theorem does_transform (op : String → Option String) :
    Does op (transformFilenames op) IsFilename VisualsHaveGeometry := by
  have h2 := (does_each (does_each (does_visual op) "visual") "link").congr
    (P' := fun t p => Follows [("link", false), ("visual", false), ("geometry", true), ("mesh", false),
      ("<xmlattr>", true), ("filename", true)] t p ∨
      Follows [("link", false), ("visual", false), ("material", false), ("texture", true),
      ("<xmlattr>", true), ("filename", true)] t p) (V' := VisualsHaveGeometry)
    (fun t p => by
      rw [follows_cons, follows_cons, ← below_or]
      refine iff_of_eq (congrArg (fun P => Below "link" false P t p) ?_)
      funext t p
      rw [follows_cons, follows_cons]
      exact propext (below_or ..).symm) visualsHaveGeometry_iff
  refine ((does_texture op).seq h2 (fun t p h h' => ?_) (fun t t' h p => ?_)
    visualsHaveGeometry_keys).congr (fun _ _ => Iff.rfl) (by simp)
  · rcases h' with h' | h' <;> exact absurd (follows_head h h') (by decide)
  · rw [follows_keys_iff _ t t' h, follows_keys_iff _ t t' h]

end AlMath.Filenames
