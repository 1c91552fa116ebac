import Verif.Model.UrdfText
import Mathlib.Data.List.TakeWhile
import Mathlib.Tactic.IntervalCases

/-!
C72: arrays of three numbers in the attributes of robot descriptions.
-/

namespace AlMath.UrdfText

open AlMath.Urdf

namespace Spec

/-- Space, tabulation, line feed, vertical tabulation, form feed or carriage return. Not in /repo:
specification. -/
def Blank (c : Char) : Prop := c ∈ [' ', '\t', '\n', '\x0b', '\x0c', '\r']

/-- Only blanks. Not in /repo: specification. -/
def Blanks (s : List Char) : Prop := ∀ c ∈ s, Blank c

/-- At least one character, and no blank. Not in /repo: specification. -/
def Word (s : List Char) : Prop := s ≠ [] ∧ ∀ c ∈ s, ¬ Blank c

/-- The text is made of three numbers separated by blanks, maybe with blanks around. Not in /repo:
specification. -/
def ThreeNumbers (parse : List Char → Option ℝ) (s : List Char) (a : Array3d) : Prop :=
  ∃ w0 t0 w1 t1 w2 t2 w3, s = w0 ++ t0 ++ w1 ++ t1 ++ w2 ++ t2 ++ w3 ∧
    Blanks w0 ∧ Blanks w1 ∧ Blanks w2 ∧ Blanks w3 ∧ w1 ≠ [] ∧ w2 ≠ [] ∧
    Word t0 ∧ Word t1 ∧ Word t2 ∧
    parse t0 = some (a 0) ∧ parse t1 = some (a 1) ∧ parse t2 = some (a 2)

/-- What is printed for the number is read back, and holds no blank. Not in /repo: specification. -/
def Faithful (parse : List Char → Option ℝ) (print : ℝ → List Char) (x : ℝ) : Prop :=
  Word (print x) ∧ parse (print x) = some x

end Spec

open Spec

theorem isBlank_iff (c : Char) : isBlank c = true ↔ Blank c := by
  simp [isBlank, Blank, or_assoc]

theorem isBlank_not (c : Char) : isBlank c = false ↔ ¬ Blank c := by
  rw [← isBlank_iff, Bool.not_eq_true]

theorem tokens_blanks {w : List Char} (h : Blanks w) (s : List Char) : tokens (w ++ s) = tokens s := by
  induction w with
  | nil => rfl
  | cons c w ih =>
    rw [List.cons_append, tokens, if_pos ((isBlank_iff c).2 (h c (by simp)))]
    exact ih fun d hd => h d (by simp [hd])

theorem tokens_word {t : List Char} (ht : Word t) (r : List Char) (hr : ∀ c ∈ r.head?, Blank c) :
    tokens (t ++ r) = t :: tokens r := by
  obtain ⟨hne, hw⟩ := ht
  cases t with
  | nil => exact absurd rfl hne
  | cons c t =>
    have hrest : ∀ (u : List Char), (∀ d ∈ u, ¬ Blank d) →
        (u ++ r).takeWhile (fun d => !isBlank d) = u ∧ (u ++ r).dropWhile (fun d => !isBlank d) = r := by
      intro u hu
      induction u with
      | nil =>
        cases r with
        | nil => exact ⟨rfl, rfl⟩
        | cons d r =>
          have := (isBlank_iff d).2 (hr d (by simp))
          simp [this]
      | cons d u ih =>
        have hd := (isBlank_not d).2 (hu d (by simp))
        obtain ⟨h1, h2⟩ := ih fun e he => hu e (by simp [he])
        simp [hd, h1, h2]
    obtain ⟨h1, h2⟩ := hrest t fun d hd => hw d (by simp [hd])
    have hc := (isBlank_not c).2 (hw c (by simp))
    rw [List.cons_append, tokens, if_neg (by simp [hc]), h1, h2]

/-- The text before the first token, the token and the rest. -/
theorem tokens_cons {s : List Char} {t : List Char} {ts : List (List Char)} (h : tokens s = t :: ts) :
    ∃ w r, s = w ++ t ++ r ∧ Blanks w ∧ Word t ∧ (∀ c ∈ r.head?, Blank c) ∧ tokens r = ts := by
  induction s with
  | nil => simp [tokens] at h
  | cons c s ih =>
    rw [tokens] at h
    by_cases hc : isBlank c = true
    · rw [if_pos hc] at h
      obtain ⟨w, r, rfl, h1, h2, h3, h4⟩ := ih h
      refine ⟨c :: w, r, rfl, ?_, h2, h3, h4⟩
      intro d hd
      rcases List.mem_cons.1 hd with rfl | hd
      · exact (isBlank_iff d).1 hc
      · exact h1 d hd
    · rw [if_neg hc, List.cons.injEq] at h
      obtain ⟨rfl, h⟩ := h
      refine ⟨[], s.dropWhile fun d => !isBlank d, ?_, by simp [Blanks], ⟨by simp, ?_⟩, ?_, h⟩
      · simp
      · intro d hd
        rcases List.mem_cons.1 hd with rfl | hd
        · exact (isBlank_not d).1 (by simpa using hc)
        · have := List.mem_takeWhile_imp hd
          exact (isBlank_not d).1 (by simpa using this)
      · intro d hd
        have := List.head?_dropWhile_not (fun d => !isBlank d) s
        rw [Option.mem_def] at hd
        rw [hd] at this
        exact (isBlank_iff d).1 (by simpa using this)

theorem tokens_nil {s : List Char} (h : tokens s = []) : Blanks s := by
  induction s with
  | nil => simp [Blanks]
  | cons c s ih =>
    rw [tokens] at h
    by_cases hc : isBlank c = true
    · rw [if_pos hc] at h
      intro d hd
      rcases List.mem_cons.1 hd with rfl | hd
      · exact (isBlank_iff d).1 hc
      · exact ih h d hd
    · rw [if_neg hc] at h
      simp at h

theorem readNumbers_three {parse : List Char → Option ℝ} {toks : List (List Char)} {a b c : ℝ} :
    readNumbers parse 3 toks = some ([a, b, c], []) ↔
      ∃ t0 t1 t2, toks = [t0, t1, t2] ∧ parse t0 = some a ∧ parse t1 = some b ∧ parse t2 = some c := by
  constructor
  · intro h
    match toks with
    | [] => simp [readNumbers] at h
    | [t0] => cases h0 : parse t0 <;> simp [readNumbers, h0] at h
    | [t0, t1] => cases h0 : parse t0 <;> cases h1 : parse t1 <;> simp [readNumbers, h0, h1] at h
    | t0 :: t1 :: t2 :: rest =>
      cases h0 : parse t0 <;> cases h1 : parse t1 <;> cases h2 : parse t2 <;>
        simp [readNumbers, h0, h1, h2] at h
      obtain ⟨⟨rfl, rfl, rfl⟩, rfl⟩ := h
      exact ⟨t0, t1, t2, rfl, h0, h1, h2⟩
  · rintro ⟨t0, t1, t2, rfl, h0, h1, h2⟩
    simp [readNumbers, h0, h1, h2]

theorem getValue_iff {parse : List Char → Option ℝ} {s : List Char} {v : Array3d} :
    getValue parse s = some v ↔
      ∃ t0 t1 t2, tokens s = [t0, t1, t2] ∧ parse t0 = some (v 0) ∧ parse t1 = some (v 1) ∧
        parse t2 = some (v 2) := by
  constructor
  · intro h
    unfold getValue at h
    split at h
    · rename_i a b c e
      rw [readNumbers_three] at e
      rw [Option.some.injEq] at h
      rw [← h]
      simpa using e
    · simp at h
  · intro h
    unfold getValue
    rw [readNumbers_three.2 h]
    simp only [Option.some.injEq]
    funext i
    fin_cases i <;> rfl

theorem blanks_head {w r : List Char} (h : Blanks w) (hne : w ≠ []) : ∀ c ∈ (w ++ r).head?, Blank c := by
  cases w with
  | nil => exact absurd rfl hne
  | cons d w =>
    intro c hc
    simp at hc
    exact hc ▸ h d (by simp)

theorem word_head {w t r : List Char} (hw : Blanks w) (ht : Word t) (h : ∀ c ∈ (w ++ t ++ r).head?, Blank c) :
    w ≠ [] := by
  rintro rfl
  obtain ⟨hne, hb⟩ := ht
  cases t with
  | nil => exact hne rfl
  | cons d t => exact hb d (by simp) (h d (by simp))

/-- An array is read in a text exactly when the text is made of three numbers separated by blanks, with
blanks around or not; the array is made of these numbers, in order. Anything else is refused: missing or
extra numbers, other separators, words that are not numbers. -/
theorem C72_read (parse : List Char → Option ℝ) (s : List Char) (a : Array3d) :
    getValue parse s = some a ↔ ThreeNumbers parse s a := by
  rw [getValue_iff]
  constructor
  · rintro ⟨t0, t1, t2, ht, h0, h1, h2⟩
    obtain ⟨w0, r0, rfl, b0, k0, e0, ht⟩ := tokens_cons ht
    obtain ⟨w1, r1, rfl, b1, k1, e1, ht⟩ := tokens_cons ht
    obtain ⟨w2, r2, rfl, b2, k2, e2, ht⟩ := tokens_cons ht
    exact ⟨w0, t0, w1, t1, w2, t2, r2, by simp, b0, b1, b2, tokens_nil ht, word_head b1 k1 e0,
      word_head b2 k2 e1, k0, k1, k2, h0, h1, h2⟩
  · rintro ⟨w0, t0, w1, t1, w2, t2, w3, rfl, b0, b1, b2, b3, n1, n2, k0, k1, k2, h0, h1, h2⟩
    refine ⟨t0, t1, t2, ?_, h0, h1, h2⟩
    have h3 : tokens w3 = [] := by
      have := tokens_blanks b3 []
      rwa [List.append_nil, tokens] at this
    have hw3 : ∀ c ∈ w3.head?, Blank c := fun c hc => b3 c (List.mem_of_mem_head? hc)
    simp only [List.append_assoc]
    rw [tokens_blanks b0, tokens_word k0 _ (blanks_head b1 n1), tokens_blanks b1,
      tokens_word k1 _ (blanks_head b2 n2), tokens_blanks b2, tokens_word k2 _ hw3, h3]

/-- What is written for an array is read back as the same array, if it is so for its numbers. -/
theorem C72_written (parse : List Char → Option ℝ) (print : ℝ → List Char) (a : Array3d)
    (h : ∀ i, Faithful parse print (a i)) : getValue parse (putValue print a) = some a := by
  rw [C72_read]
  refine ⟨[], print (a 0), [' '], print (a 1), [' '], print (a 2), [], by simp [putValue], ?_, ?_, ?_, ?_,
    by simp, by simp, (h 0).1, (h 1).1, (h 2).1, (h 0).2, (h 1).2, (h 2).2⟩ <;>
    simp [Blanks, Blank]

/-! ### Examples -/

/-- The numbers written with one digit. Helper of the examples. Not in /repo: specification. -/
def parseDigit : List Char → Option ℝ
  | [c] => if c.isDigit then some (c.toNat - 48 : ℕ) else none
  | _ => none

example : getValue parseDigit " 1\t2  3\n".toList = some ![1, 2, 3] := by
  rw [C72_read]
  refine ⟨[' '], ['1'], ['\t'], ['2'], [' ', ' '], ['3'], ['\n'], rfl, ?_⟩
  simp [Blanks, Blank, Word, parseDigit, Char.isDigit]

open Classical in
/-- Printing of the numbers 0 to 9. Helper of the examples. Not in /repo: specification. -/
noncomputable def printDigit (x : ℝ) : List Char :=
  if h : ∃ n : ℕ, n < 10 ∧ x = n then [Char.ofNat (48 + h.choose)] else ['?']

/-- The hypothesis of `C72_written` holds for the numbers 0 to 9. -/
example (n : ℕ) (hn : n < 10) : Faithful parseDigit printDigit n := by
  have h : ∃ m : ℕ, m < 10 ∧ (n : ℝ) = m := ⟨n, hn, rfl⟩
  have hm : h.choose = n := by
    have := h.choose_spec.2
    exact_mod_cast this.symm
  unfold Faithful printDigit
  rw [dif_pos h, hm]
  clear hm h
  interval_cases n <;> simp [Word, Blank, parseDigit, Char.isDigit]

/-- Two numbers, four numbers, numbers separated by commas. -/
example : getValue parseDigit "1 2".toList = none ∧ getValue parseDigit "1 2 3 4".toList = none ∧
    getValue parseDigit "1,2,3".toList = none := by
  simp [getValue, tokens, isBlank, readNumbers, parseDigit, Char.isDigit]

end AlMath.UrdfText
