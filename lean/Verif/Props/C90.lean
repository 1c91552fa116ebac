import Verif.Model.DecimalText
import Verif.Lemmas.Float32
import Verif.Lemmas.Float64
import Verif.Props.C72
import Mathlib.Data.Nat.Digits.Lemmas
import Mathlib.Tactic.IntervalCases

/-!
C90: numbers written in documents and read again.
-/

namespace AlMath.Decimal
open AlMath.F32

namespace Spec

/-- The finite values of type `double`. Not in /repo: specification. -/
def IsDouble (x : ℝ) : Prop :=
  ∃ m e : ℤ, |m| < 2 ^ 53 ∧ -1074 ≤ e ∧ e ≤ 971 ∧ x = m * (2 : ℝ) ^ e

/-- The texts of a sign. Not in /repo: specification. -/
def signs : List (List Char × ℝ) := [([], 1), (['+'], 1), (['-'], -1)]

/-- The number that digits stand for, the first one being the most significant. Not in /repo: specification. -/
def value : List ℕ → ℕ
  | [] => 0
  | d :: l => d * 10 ^ l.length + value l

end Spec

open Spec

theorem nearestInt_of_close {y : ℝ} {n : ℤ} (h : |y - n| < 1 / 2) : nearestInt y = n := by
  have h1 := nearestInt_min y n
  have h2 : |((nearestInt y : ℤ) : ℝ) - n| < 1 := by
    calc |((nearestInt y : ℤ) : ℝ) - n| = |(nearestInt y - y) + (y - n)| := by ring_nf
      _ ≤ |nearestInt y - y| + |y - n| := abs_add_le _ _
      _ < 1 := by rw [abs_sub_comm (n : ℝ) y] at h1; linarith
  have h3 : |nearestInt y - n| < 1 := by exact_mod_cast h2
  rw [Int.abs_lt_one_iff] at h3
  omega

/-- A value of the format is the nearest one of all the numbers that are closer to it than half the last bit. -/
theorem rnd_unique {k emin n e : ℤ} {x d : ℝ} (hx : x = n * (2 : ℝ) ^ e) (hn : |n| < 2 ^ (k + 1).toNat) (hk : 0 ≤ k)
    (he : emin ≤ e) (h : |d - x| < |x| * (2 : ℝ) ^ (-(k + 2))) :
    nearestInt (d / (2 : ℝ) ^ (max (Int.log 2 |d| - k) emin)) * (2 : ℝ) ^ (max (Int.log 2 |d| - k) emin) = x := by
  have hx0 : x ≠ 0 := by rintro rfl; simp at h; exact absurd h (not_lt.2 (abs_nonneg _))
  have hp := fun e : ℤ => two_zpow_pos e
  set l := Int.log 2 |d| with hl
  -- |x| < 2^(l+2)
  have hk4 : (2 : ℝ) ^ (-(k + 2)) ≤ 1 / 4 := by
    rw [show (1 / 4 : ℝ) = 2 ^ (-2 : ℤ) by norm_num]
    exact zpow_le_zpow_right₀ (by norm_num) (by omega)
  have hxa := abs_pos.2 hx0
  have h4 : |d - x| < |x| / 4 := lt_of_lt_of_le h (by nlinarith)
  have hd0 : d ≠ 0 := by
    rintro rfl
    rw [zero_sub, abs_neg] at h4; linarith
  have hld := zpow_log_le hd0
  have hld' := lt_zpow_log d
  rw [← hl] at hld hld'
  set L := max (l - k) emin with hL
  have key : (∃ m : ℤ, x = m * (2 : ℝ) ^ L) ∧ |d - x| < (2 : ℝ) ^ L / 2 := by
    have hza := fun a b : ℤ => zpow_add₀ (two_ne_zero : (2 : ℝ) ≠ 0) a b
    have hlx := zpow_log_le hx0
    have hlx' := lt_zpow_log x
    set t := Int.log 2 |x| with ht
    have hmul : ∀ j ≤ e, ∃ m : ℤ, x = m * (2 : ℝ) ^ j := fun j hj => by
      refine ⟨n * 2 ^ (e - j).toNat, ?_⟩
      have : ((2 : ℤ) ^ (e - j).toNat : ℝ) = (2 : ℝ) ^ (e - j) := by
        rw [← zpow_natCast, Int.toNat_of_nonneg (by omega)]; norm_cast
      push_cast at this ⊢
      rw [this, hx, mul_assoc, ← hza]; congr 2; ring
    have hkk : ((2 : ℝ) ^ (k + 1).toNat) = (2 : ℝ) ^ (k + 1) := by
      rw [← zpow_natCast, Int.toNat_of_nonneg (by omega)]
    have hte : t - k ≤ e := by
      have hn' : |(n : ℝ)| < (2 : ℝ) ^ (k + 1) := by rw [← hkk]; exact_mod_cast hn
      have : (2 : ℝ) ^ t < (2 : ℝ) ^ (k + 1 + e) := by
        refine lt_of_le_of_lt hlx ?_
        rw [hx, abs_mul, abs_of_pos (hp e), hza]
        exact mul_lt_mul_of_pos_right hn' (hp e)
      have := (zpow_lt_zpow_iff_right₀ (by norm_num : (1 : ℝ) < 2)).1 this
      omega
    obtain ⟨M, hM⟩ := hmul _ hte
    have hMa : |x| = ((|M| : ℤ) : ℝ) * (2 : ℝ) ^ (t - k) := by
      rw [hM, abs_mul, abs_of_pos (hp (t - k))]; push_cast; rfl
    have ht1 : (2 : ℝ) ^ (t + 1) = (2 : ℝ) ^ (k + 1) * (2 : ℝ) ^ (t - k) := by rw [← hza]; congr 1; ring
    have ht0 : (2 : ℝ) ^ t = (2 : ℝ) ^ k * (2 : ℝ) ^ (t - k) := by rw [← hza]; congr 1; ring
    have hkn : (2 : ℝ) ^ k = ((2 ^ k.toNat : ℤ) : ℝ) := by
      push_cast; rw [← zpow_natCast, Int.toNat_of_nonneg hk]
    have hkn1 : (2 : ℝ) ^ (k + 1) = ((2 ^ (k + 1).toNat : ℤ) : ℝ) := by push_cast; rw [hkk]
    have hlt : |d - x| < (2 : ℝ) ^ (t - k) / 2 := by
      refine h.trans_le ?_
      calc |x| * (2 : ℝ) ^ (-(k + 2)) ≤ (2 : ℝ) ^ (t + 1) * (2 : ℝ) ^ (-(k + 2)) :=
            mul_le_mul_of_nonneg_right hlx'.le (hp _).le
        _ = (2 : ℝ) ^ (t - k) / 2 := by
          rw [← hza, show t + 1 + -(k + 2) = (t - k) + (-1) by ring, hza]; norm_num; ring
    have hdx : |d| ≤ |x| + |d - x| := by
      have := abs_add_le x (d - x); rwa [add_sub_cancel] at this
    have hxd : |x| ≤ |d| + |d - x| := by
      have := abs_add_le d (x - d); rwa [add_sub_cancel, abs_sub_comm] at this
    have hP := hp (t - k)
    have hlt1 : l ≤ t := by
      by_contra hc
      have h1 : (2 : ℝ) ^ (t + 1) ≤ |d| :=
        (zpow_le_zpow_right₀ (by norm_num) (by omega)).trans hld
      have h2 : |M| < 2 ^ (k + 1).toNat := by
        have : ((|M| : ℤ) : ℝ) < ((2 ^ (k + 1).toNat : ℤ) : ℝ) := by
          rw [← hkn1]
          rw [hMa, ht1] at hlx'
          exact lt_of_mul_lt_mul_right hlx' hP.le
        exact_mod_cast this
      have h3 : ((|M| : ℤ) : ℝ) + 1 ≤ (2 : ℝ) ^ (k + 1) := by rw [hkn1]; exact_mod_cast h2
      have h4 : |x| + (2 : ℝ) ^ (t - k) ≤ (2 : ℝ) ^ (t + 1) := by
        rw [hMa, ht1]; nlinarith
      linarith
    refine ⟨hmul L (by simp only [hL]; omega), ?_⟩
    have hLl : (2 : ℝ) ^ (l - k) ≤ (2 : ℝ) ^ L := zpow_le_zpow_right₀ (by norm_num) (le_max_left _ _)
    rcases hlt1.lt_or_eq with hlt2 | hlt2
    · have hl1 : l = t - 1 := by
        have : (2 : ℝ) ^ (t - 1) < (2 : ℝ) ^ (l + 1) := by
          have : (2 : ℝ) ^ t = (2 : ℝ) ^ (t - 1) * 2 := by
            rw [show t = (t - 1) + 1 by ring, hza]; norm_num
          have := hp (t - 1)
          linarith
        have := (zpow_lt_zpow_iff_right₀ (by norm_num : (1 : ℝ) < 2)).1 this
        omega
      have hdt : |d| < (2 : ℝ) ^ t := by
        refine hld'.trans_le (zpow_le_zpow_right₀ (by norm_num) (by omega))
      have hxt : |x| ≤ (2 : ℝ) ^ t := by
        by_contra hc
        have h2 : 2 ^ k.toNat < |M| := by
          have : ((2 ^ k.toNat : ℤ) : ℝ) < ((|M| : ℤ) : ℝ) := by
            rw [← hkn]
            rw [hMa, ht0] at hc
            exact lt_of_mul_lt_mul_right (not_le.1 hc) hP.le
          exact_mod_cast this
        have h3 : (2 : ℝ) ^ k + 1 ≤ ((|M| : ℤ) : ℝ) := by rw [hkn]; exact_mod_cast h2
        have h4 : (2 : ℝ) ^ t + (2 : ℝ) ^ (t - k) ≤ |x| := by
          rw [hMa, ht0]; nlinarith
        linarith
      refine h.trans_le (le_trans ?_ (div_le_div_of_nonneg_right hLl (by norm_num)))
      calc |x| * (2 : ℝ) ^ (-(k + 2)) ≤ (2 : ℝ) ^ t * (2 : ℝ) ^ (-(k + 2)) :=
            mul_le_mul_of_nonneg_right hxt (hp _).le
        _ = (2 : ℝ) ^ (l - k) / 2 := by
          rw [← hza, hl1, show t + -(k + 2) = (t - 1 - k) + (-1) by ring, hza]; norm_num; ring
    · rw [hlt2] at hLl; exact hlt.trans_le (div_le_div_of_nonneg_right hLl (by norm_num))
  obtain ⟨⟨m, hm⟩, hd⟩ := key
  have : nearestInt (d / (2 : ℝ) ^ L) = m := by
    apply nearestInt_of_close
    rw [show d / (2 : ℝ) ^ L - m = (d - x) / (2 : ℝ) ^ L by rw [hm]; field_simp [(hp L).ne'], abs_div,
      abs_of_pos (hp L), div_lt_iff₀ (hp L)]
    linarith
  rw [this, hm]

/-- The number that some digits stand for, the first one being the most significant. Helper of the proofs. Not in
/repo: specification. -/
def big (l : List ℕ) : ℕ := l.foldl (fun a d => 10 * a + d) 0

theorem big_append (a b : List ℕ) : big (a ++ b) = big a * 10 ^ b.length + big b := by
  have : ∀ (b : List ℕ) (s : ℕ), b.foldl (fun a d => 10 * a + d) s = s * 10 ^ b.length + big b := by
    intro b
    induction b with
    | nil => intro s; simp [big]
    | cons d b ih =>
      intro s
      have e : big (d :: b) = b.foldl (fun a d => 10 * a + d) (10 * 0 + d) := rfl
      rw [List.foldl_cons, ih, e, ih, List.length_cons]
      ring
  unfold big
  rw [List.foldl_append, this]
  rfl

theorem big_digits (n : ℕ) : big (digits n) = n := by
  unfold big digits
  rw [List.foldl_reverse]
  conv_rhs => rw [← Nat.ofDigits_digits 10 n]
  rw [Nat.ofDigits_eq_foldr]
  congr 1
  funext a b
  simp; ring

theorem digits_lt (n : ℕ) : ∀ d ∈ digits n, d < 10 := by
  intro d hd
  exact Nat.digits_lt_base (by norm_num) (List.mem_reverse.1 hd)

theorem length_digits {n p : ℕ} (h1 : 10 ^ (p - 1) ≤ n) (h2 : n < 10 ^ p) (hp : 0 < p) : (digits n).length = p := by
  unfold digits
  rw [List.length_reverse]
  apply le_antisymm
  · exact (Nat.digits_length_le_iff (by norm_num) n).2 h2
  · have := (Nat.lt_digits_length_iff (b := 10) (k := p - 1) (by norm_num) n).2 h1
    omega

theorem big_strip (a b : List ℕ) :
    (big (a ++ strip b) : ℝ) * (10 : ℝ) ^ (-((strip b).length : ℤ)) = big (a ++ b) * (10 : ℝ) ^ (-(b.length : ℤ)) := by
  induction b using List.reverseRecOn with
  | nil => rfl
  | append_singleton b d ih =>
    unfold strip at ih ⊢
    rw [List.rdropWhile_concat]
    by_cases hd : d = 0
    · rw [if_pos (by simpa using hd), ih, ← List.append_assoc, big_append (a ++ b)]
      simp [hd, big]
      rw [zpow_add₀ (by norm_num)]
      norm_num
      ring
    · rw [if_neg (by simpa using hd)]

theorem strip_subset (b : List ℕ) : ∀ d ∈ strip b, d ∈ b := fun d hd => by
  unfold strip at hd
  exact (List.rdropWhile_prefix _ _).subset hd

theorem digitChar_digit {d : ℕ} (h : d < 10) :
    (Nat.digitChar d).isDigit = true ∧ (Nat.digitChar d).toNat - 48 = d ∧ ¬ UrdfText.isBlank (Nat.digitChar d) ∧
    Nat.digitChar d ≠ '-' ∧ Nat.digitChar d ≠ '+' := by
  interval_cases d <;> decide

theorem number_map {l : List ℕ} (h : ∀ d ∈ l, d < 10) : number (l.map Nat.digitChar) = big l := by
  unfold number big
  rw [List.foldl_map]
  generalize (0 : ℕ) = s
  induction l generalizing s with
  | nil => rfl
  | cons d l ih =>
    rw [List.foldl_cons, List.foldl_cons, (digitChar_digit (h d (by simp))).2.1]
    exact ih (fun e he => h e (by simp [he])) _

theorem span_digits {l : List ℕ} (h : ∀ d ∈ l, d < 10) (r : List Char) (hr : ∀ c ∈ r.head?, c.isDigit = false) :
    (l.map Nat.digitChar ++ r).takeWhile Char.isDigit = l.map Nat.digitChar ∧
    (l.map Nat.digitChar ++ r).dropWhile Char.isDigit = r := by
  induction l with
  | nil =>
    cases r with
    | nil => exact ⟨rfl, rfl⟩
    | cons c r => have := hr c (by simp); simp [this]
  | cons d l ih =>
    have hd := (digitChar_digit (h d (by simp))).1
    obtain ⟨h1, h2⟩ := ih fun e he => h e (by simp [he])
    simp [hd, h1, h2]

theorem readUnsigned_point {i f : List ℕ} (hi : ∀ d ∈ i, d < 10) (hf : ∀ d ∈ f, d < 10) (hne : i ≠ [])
    (r : List Char) (hr : ∀ c ∈ r.head?, c.isDigit = false ∧ c ≠ '.') :
    readUnsigned (point i f ++ r) =
      (readExponent r).map fun e : ℤ => (big (i ++ f) : ℝ) * (10 : ℝ) ^ (e - (f.length : ℤ)) := by
  have hr1 : ∀ c ∈ r.head?, c.isDigit = false := fun c hc => (hr c hc).1
  by_cases h0 : f = []
  · subst h0
    obtain ⟨h1, h2⟩ := span_digits hi r hr1
    have h3 : readFraction r = ([], r) := by
      cases r with
      | nil => rfl
      | cons c r => have := (hr c (by simp)).2; simp [readFraction, this]
    unfold readUnsigned point
    rw [if_pos rfl, List.append_nil, h1, h2, h3]
    simp only [List.append_nil]
    rw [if_neg (by simpa using hne), number_map hi]
    rfl
  · obtain ⟨h1, h2⟩ := span_digits hi ('.' :: (f.map Nat.digitChar ++ r)) (by simp)
    obtain ⟨h3, h4⟩ := span_digits hf r hr1
    unfold readUnsigned point
    rw [if_neg h0, List.append_assoc, List.cons_append, h1, h2]
    simp only [readFraction, if_true, h3, h4]
    rw [if_neg (by simp [hne]), ← List.map_append, number_map (by
      intro d hd; rcases List.mem_append.1 hd with hd | hd
      · exact hi d hd
      · exact hf d hd), List.length_map]

theorem readExponent_exponent (X : ℤ) : readExponent (exponent X) = some X := by
  unfold readExponent exponent
  dsimp only
  rw [if_pos (Or.inl rfl)]
  set l := (if X.natAbs < 10 then [0, X.natAbs] else digits X.natAbs) with hl
  have hlt : ∀ d ∈ l, d < 10 := by
    rw [hl]; split_ifs with h
    · simp [h]
    · exact digits_lt _
  have hb : big l = X.natAbs := by
    rw [hl]; split_ifs with h
    · simp [big]
    · exact big_digits _
  have hne : l ≠ [] := by
    rw [hl]; split_ifs with h
    · simp
    · intro h0
      have := big_digits X.natAbs
      rw [h0] at this
      simp [big] at this
      rw [← this] at h
      simp at h
  have hd : (l.map Nat.digitChar).all Char.isDigit = true := by
    simp only [List.all_map, List.all_eq_true, Function.comp]
    exact fun d hd => (digitChar_digit (hlt d hd)).1
  by_cases hX : X < 0
  · simp only [hX, if_true, readSign]
    rw [if_pos ⟨by simpa using hne, hd⟩, number_map hlt, hb]
    simp only [Option.some.injEq]; omega
  · have : ('+' : Char) ≠ '-' := by decide
    simp only [hX, if_false, readSign, this, if_true]
    rw [if_pos ⟨by simpa using hne, hd⟩, number_map hlt, hb]
    simp only [Bool.false_eq_true, if_false, Option.some.injEq]; omega

theorem roundDigits_spec {p : ℕ} {x : ℝ} (hp : 0 < p) (hx : 0 < x) :
    10 ^ (p - 1) ≤ (roundDigits p x).1 ∧ (roundDigits p x).1 < 10 ^ p ∧
    |((roundDigits p x).1 : ℝ) * (10 : ℝ) ^ ((roundDigits p x).2 - ((p : ℤ) - 1)) - x| ≤
      x * (10 : ℝ) ^ (-((p : ℤ) - 1)) / 2 := by
  have h10 : (10 : ℝ) ≠ 0 := by norm_num
  have hpos := fun e : ℤ => (zpow_pos (by norm_num : (0 : ℝ) < 10) e)
  have hlog := Int.zpow_log_le_self (b := 10) (by norm_num) hx
  have hlog' := Int.lt_zpow_succ_log_self (b := 10) (by norm_num) x
  push_cast at hlog hlog'
  set X := Int.log 10 x with hX
  set u := (10 : ℝ) ^ (X - ((p : ℤ) - 1)) with hu
  have hupos : 0 < u := hpos _
  have e1 : (10 : ℝ) ^ X = ((10 ^ (p - 1) : ℕ) : ℝ) * u := by
    rw [hu, zpow_sub₀ h10, Nat.cast_pow, ← zpow_natCast, Nat.cast_sub hp]
    push_cast
    field_simp
  have e2 : (10 : ℝ) ^ (X + 1) = ((10 ^ p : ℕ) : ℝ) * u := by
    rw [hu, zpow_sub₀ h10, zpow_sub₀ h10, zpow_add₀ h10]
    push_cast
    rw [zpow_natCast]
    field_simp
  have y1 : ((10 ^ (p - 1) : ℕ) : ℝ) ≤ x / u := by rw [le_div_iff₀ hupos, ← e1]; exact hlog
  have y2 : x / u < ((10 ^ p : ℕ) : ℝ) := by rw [div_lt_iff₀ hupos, ← e2]; exact hlog'
  have hn := nearestInt_abs (x / u)
  set n := nearestInt (x / u) with hndef
  have hn' := abs_le.1 hn
  have n1 : ((10 ^ (p - 1) : ℕ) : ℤ) ≤ n := by
    have : ((10 ^ (p - 1) : ℕ) : ℝ) < (n : ℝ) + 1 := by linarith
    have : ((10 ^ (p - 1) : ℕ) : ℤ) < n + 1 := by exact_mod_cast this
    omega
  have n2 : n ≤ ((10 ^ p : ℕ) : ℤ) := by
    have : (n : ℝ) < ((10 ^ p : ℕ) : ℝ) + 1 := by linarith
    have : n < ((10 ^ p : ℕ) : ℤ) + 1 := by exact_mod_cast this
    omega
  have n0 : 0 ≤ n := le_trans (Int.natCast_nonneg _) n1
  have hn0 : ((n.toNat : ℕ) : ℝ) = n := by
    have : ((n.toNat : ℕ) : ℤ) = n := Int.toNat_of_nonneg n0
    exact_mod_cast this
  have herr : |(n : ℝ) * u - x| ≤ x * (10 : ℝ) ^ (-((p : ℤ) - 1)) / 2 := by
    have : (n : ℝ) * u - x = (n - x / u) * u := by field_simp
    rw [this, abs_mul, abs_of_pos hupos]
    have h2 : u ≤ x * (10 : ℝ) ^ (-((p : ℤ) - 1)) := by
      rw [hu, sub_eq_add_neg, zpow_add₀ h10]
      exact mul_le_mul_of_nonneg_right hlog (hpos _).le
    nlinarith
  have hr : roundDigits p x = if n.toNat = 10 ^ p then (10 ^ (p - 1), X + 1) else (n.toNat, X) := rfl
  rw [hr]
  by_cases hc : n.toNat = 10 ^ p
  · rw [if_pos hc]
    refine ⟨le_rfl, Nat.pow_lt_pow_right (by norm_num) (by omega), ?_⟩
    have : ((10 ^ (p - 1) : ℕ) : ℝ) * (10 : ℝ) ^ (X + 1 - ((p : ℤ) - 1)) = (n : ℝ) * u := by
      rw [← hn0, hc, ← e2, show X + 1 - ((p : ℤ) - 1) = 1 + (X - ((p : ℤ) - 1)) by ring, zpow_add₀ h10, zpow_add₀ h10, e1]
      ring
    dsimp only
    rw [this]; exact herr
  · rw [if_neg hc]
    refine ⟨(Int.le_toNat n0).2 n1, lt_of_le_of_ne (Int.toNat_le.2 n2) hc, ?_⟩
    dsimp only
    rw [hn0]; exact herr

/-- Characters that are neither blanks nor at the start of a sign. Helper of the proofs. Not in /repo:
specification. -/
def NoBlank (l : List Char) : Prop := ∀ c ∈ l, UrdfText.isBlank c = false

theorem noBlank_digits {l : List ℕ} (h : ∀ d ∈ l, d < 10) : NoBlank (l.map Nat.digitChar) := by
  intro c hc
  obtain ⟨d, hd, rfl⟩ := List.mem_map.1 hc
  simpa using (digitChar_digit (h d hd)).2.2.1

theorem noBlank_append {a b : List Char} (ha : NoBlank a) (hb : NoBlank b) : NoBlank (a ++ b) := by
  intro c hc
  rcases List.mem_append.1 hc with h | h
  · exact ha c h
  · exact hb c h

theorem noBlank_point {i f : List ℕ} (hi : ∀ d ∈ i, d < 10) (hf : ∀ d ∈ f, d < 10) : NoBlank (point i f) := by
  unfold point
  refine noBlank_append (noBlank_digits hi) ?_
  split_ifs
  · simp [NoBlank]
  · intro c hc
    rcases List.mem_cons.1 hc with rfl | hc
    · decide
    · exact noBlank_digits hf c hc

theorem noBlank_exponent (X : ℤ) : NoBlank (exponent X) := by
  unfold exponent
  intro c hc
  rcases List.mem_cons.1 hc with rfl | hc
  · decide
  rcases List.mem_cons.1 hc with rfl | hc
  · split_ifs <;> decide
  · refine noBlank_digits ?_ c hc
    split_ifs with h
    · simp [h]
    · exact digits_lt _

/-- What is printed for a positive number: a text without blanks, starting with a digit, that is read as the number
rounded to the digits. -/
theorem printPos_spec {p : ℕ} {x : ℝ} (hp : 0 < p) (hx : 0 < x) :
    NoBlank (printPos p x) ∧ (∃ d < 10, (printPos p x).head? = some (Nat.digitChar d)) ∧
    readUnsigned (printPos p x) =
      some (((roundDigits p x).1 : ℝ) * (10 : ℝ) ^ ((roundDigits p x).2 - ((p : ℤ) - 1))) := by
  obtain ⟨h1, h2, -⟩ := roundDigits_spec hp hx
  set D := (roundDigits p x).1 with hD
  set X := (roundDigits p x).2 with hX
  have hlen := length_digits h1 h2 hp
  have hlt := digits_lt D
  have hbig := big_digits D
  have hpr : printPos p x = if -4 ≤ X ∧ X < p then
      if 0 ≤ X then point ((digits D).take (X.toNat + 1)) (strip ((digits D).drop (X.toNat + 1)))
      else point [0] (strip (List.replicate (-X - 1).toNat 0 ++ digits D))
    else point ((digits D).take 1) (strip ((digits D).drop 1)) ++ exponent X := rfl
  set ds := digits D with hds
  have htake : ∀ k, ∀ d ∈ ds.take k, d < 10 := fun k d hd => hlt d (List.mem_of_mem_take hd)
  have hdrop : ∀ k, ∀ d ∈ strip (ds.drop k), d < 10 := fun k d hd =>
    hlt d (List.mem_of_mem_drop (strip_subset _ d hd))
  have hne : ds ≠ [] := by intro h; rw [h] at hlen; simp at hlen; omega
  have hhead : ∀ (i f : List ℕ) (r : List Char), i ≠ [] → (∀ d ∈ i, d < 10) →
      ∃ d < 10, (point i f ++ r).head? = some (Nat.digitChar d) := by
    intro i f r hi hl
    cases i with
    | nil => exact absurd rfl hi
    | cons d i => exact ⟨d, hl d (by simp), by simp [point]⟩
  have hk : ∀ k, ds.take (k + 1) ≠ [] := fun k h => by
    rw [List.take_eq_nil_iff] at h
    rcases h with h | h
    · omega
    · exact hne h
  rw [hpr]
  split_ifs with hf hX0
  · refine ⟨noBlank_point (htake _) (hdrop _), ?_, ?_⟩
    · have := hhead _ (strip (ds.drop (X.toNat + 1))) [] (hk X.toNat) (htake _)
      rwa [List.append_nil] at this
    · have := readUnsigned_point (htake (X.toNat + 1)) (hdrop (X.toNat + 1)) (hk _) [] (by simp)
      rw [List.append_nil] at this
      rw [this, readExponent, Option.map_some, zero_sub, big_strip, List.take_append_drop, hbig, List.length_drop, hlen]
      congr 2
      congr 1
      omega
  · have hz : ∀ d ∈ strip (List.replicate (-X - 1).toNat 0 ++ ds), d < 10 := by
      intro d hd
      rcases List.mem_append.1 (strip_subset _ d hd) with h | h
      · rw [(List.mem_replicate.1 h).2]; norm_num
      · exact hlt d h
    refine ⟨noBlank_point (by simp) hz, ?_, ?_⟩
    · have := hhead [0] (strip (List.replicate (-X - 1).toNat 0 ++ ds)) [] (by simp) (by simp)
      rwa [List.append_nil] at this
    · have := readUnsigned_point (i := [0]) (by simp) hz (by simp) [] (by simp)
      rw [List.append_nil] at this
      have hzero : ∀ k, big (0 :: List.replicate k 0) = 0 := by
        intro k
        induction k with
        | zero => rfl
        | succ k ih =>
          rw [List.replicate_succ', ← List.cons_append, big_append, ih]; simp [big]
      rw [this, readExponent, Option.map_some, zero_sub, big_strip, ← List.append_assoc, big_append, hbig,
        List.singleton_append, hzero, List.length_append, List.length_replicate, hlen]
      congr 2
      · simp
      · congr 1
        omega
  · refine ⟨noBlank_append (noBlank_point (htake _) (hdrop _)) (noBlank_exponent X), hhead _ _ _ (hk 0) (htake _), ?_⟩
    have := readUnsigned_point (htake 1) (hdrop 1) (hk 0) (exponent X) (by simp [exponent])
    rw [this, readExponent_exponent, Option.map_some, sub_eq_add_neg, zpow_add₀ (by norm_num), mul_left_comm, big_strip,
      List.take_append_drop, hbig, List.length_drop, hlen]
    congr 1
    rw [mul_left_comm, ← zpow_add₀ (by norm_num)]
    congr 2
    omega

theorem trim_noBlank {l : List Char} (h : NoBlank l) :
    (l.dropWhile UrdfText.isBlank).rdropWhile UrdfText.isBlank = l := by
  have h1 : l.dropWhile UrdfText.isBlank = l := by
    cases l with
    | nil => rfl
    | cons c l => simp [h c (by simp)]
  rw [h1, List.rdropWhile_eq_self_iff]
  intro hl
  simp [h _ (List.getLast_mem hl)]

theorem printReal_noBlank {p : ℕ} (hp : 0 < p) (x : ℝ) : NoBlank (printReal p x) ∧ printReal p x ≠ [] := by
  unfold printReal
  split_ifs with h0 h1
  · exact ⟨by intro c hc; simp at hc; rw [hc]; decide, by simp⟩
  · refine ⟨?_, by simp⟩
    intro c hc
    rcases List.mem_cons.1 hc with rfl | hc
    · decide
    · exact (printPos_spec hp (by linarith : 0 < -x)).1 c hc
  · obtain ⟨h2, ⟨d, -, h3⟩, -⟩ := printPos_spec hp (lt_of_le_of_ne (not_lt.1 h1) (Ne.symm h0))
    exact ⟨h2, fun h => by rw [h] at h3; simp at h3⟩

/-- The text of a number is read as a decimal number close to it. -/
theorem readReal_printReal {p : ℕ} (hp : 0 < p) (x : ℝ) :
    ∃ v, readReal (printReal p x) = some v ∧ |v - x| ≤ |x| * (10 : ℝ) ^ (-((p : ℤ) - 1)) / 2 := by
  unfold printReal
  split_ifs with h0 h1
  · refine ⟨0, ?_, by rw [h0]; simp⟩
    simp [readReal, readSign, readUnsigned, readFraction, readExponent, number]
  · have hx : 0 < -x := by linarith
    obtain ⟨-, -, h3⟩ := printPos_spec hp hx
    obtain ⟨-, -, h4⟩ := roundDigits_spec hp hx
    refine ⟨_, by simp only [readReal, readSign, if_true, h3, Option.map_some]; rfl, ?_⟩
    rw [abs_of_neg h1]
    refine le_trans (le_of_eq ?_) h4
    rw [← abs_neg]; congr 1; ring
  · have hx : 0 < x := lt_of_le_of_ne (not_lt.1 h1) (Ne.symm h0)
    obtain ⟨-, ⟨d, hd, h2⟩, h3⟩ := printPos_spec hp hx
    obtain ⟨-, -, h4⟩ := roundDigits_spec hp hx
    have hs : readSign (printPos p x) = (false, printPos p x) := by
      cases hl : printPos p x with
      | nil => rfl
      | cons c l =>
        rw [hl] at h2
        simp at h2
        obtain ⟨-, -, -, h5, h6⟩ := digitChar_digit hd
        simp [readSign, h2, h5, h6]
    refine ⟨_, by simp only [readReal, hs, h3, Option.map_some]; rfl, ?_⟩
    rw [abs_of_pos hx]; exact h4

theorem parse_print {p : ℕ} (hp : 0 < p) (round : ℝ → F64) (x : ℝ)
    (h : ∀ v, |v - x| ≤ |x| * (10 : ℝ) ^ (-((p : ℤ) - 1)) / 2 → round v = fin x) :
    parse round (printReal p x) = some x := by
  obtain ⟨v, hv, he⟩ := readReal_printReal hp x
  unfold parse
  rw [trim_noBlank (printReal_noBlank hp x).1, hv]
  dsimp only
  rw [h v he]

theorem close_of_digits {p k : ℕ} (hpk : 2 ^ (k + 1) < 10 ^ (p - 1)) (hp : 0 < p) {x : ℝ} (hx : x ≠ 0) :
    |x| * (10 : ℝ) ^ (-((p : ℤ) - 1)) / 2 < |x| * (2 : ℝ) ^ (-((k : ℤ) + 2)) := by
  have h1 : (10 : ℝ) ^ (-((p : ℤ) - 1)) = ((10 : ℝ) ^ (p - 1))⁻¹ := by
    rw [zpow_neg, ← zpow_natCast, Nat.cast_sub hp]; norm_num
  have h2 : (2 : ℝ) ^ (-((k : ℤ) + 2)) = ((2 : ℝ) ^ (k + 1))⁻¹ / 2 := by
    rw [zpow_neg, show (k : ℤ) + 2 = ((k + 1 : ℕ) : ℤ) + 1 by push_cast; ring, zpow_add₀ (by norm_num), zpow_natCast]
    norm_num
    ring
  have h3 : ((10 : ℝ) ^ (p - 1))⁻¹ < ((2 : ℝ) ^ (k + 1))⁻¹ := by
    apply inv_strictAnti₀ (by positivity)
    exact_mod_cast hpk
  have := abs_pos.2 hx
  rw [h1, h2]
  nlinarith

/-! ### Properties -/

theorem value_eq_big (l : List ℕ) : value l = big l := by
  induction l with
  | nil => rfl
  | cons d l ih =>
    have := big_append [d] l
    simp only [List.singleton_append] at this
    rw [this, value, ih]; simp [big]

theorem trim_blanks {w1 w2 l : List Char} (h1 : ∀ c ∈ w1, UrdfText.isBlank c = true)
    (h2 : ∀ c ∈ w2, UrdfText.isBlank c = true) (h : NoBlank l) (hl : l ≠ []) :
    ((w1 ++ l ++ w2).dropWhile UrdfText.isBlank).rdropWhile UrdfText.isBlank = l := by
  have e1 : (w1 ++ l ++ w2).dropWhile UrdfText.isBlank = l ++ w2 := by
    rw [List.append_assoc, List.dropWhile_append_of_pos h1]
    cases l with
    | nil => exact absurd rfl hl
    | cons c l => simp [h c (by simp)]
  rw [e1]
  have e2 : ((l ++ w2).reverse.dropWhile UrdfText.isBlank) = l.reverse := by
    rw [List.reverse_append, List.dropWhile_append_of_pos (fun c hc => h2 c (by simpa using hc))]
    cases hr : l.reverse with
    | nil => rfl
    | cons c r =>
      have : c ∈ l := by
        have : c ∈ l.reverse := by rw [hr]; simp
        simpa using this
      simp [h c this]
  unfold List.rdropWhile
  rw [e2, List.reverse_reverse]

theorem parse_double {p : ℕ} (hp : 17 ≤ p) {x : ℝ} (hx : IsDouble x) : parse F64.round (printReal p x) = some x := by
  apply parse_print (by omega)
  intro v hv
  obtain ⟨m, e, hm, he, he', rfl⟩ := hx
  set x := (m : ℝ) * (2 : ℝ) ^ e with hxdef
  have hlt : |x| < 2 ^ 1024 := by
    rw [hxdef, abs_mul, abs_of_pos (two_zpow_pos e)]
    have h1 : |(m : ℝ)| < 2 ^ 53 := by exact_mod_cast hm
    have h2 : (2 : ℝ) ^ e ≤ 2 ^ (971 : ℤ) := zpow_le_zpow_right₀ (by norm_num) he'
    calc |(m : ℝ)| * (2 : ℝ) ^ e < 2 ^ 53 * (2 : ℝ) ^ e := mul_lt_mul_of_pos_right h1 (two_zpow_pos e)
      _ ≤ 2 ^ 53 * (2 : ℝ) ^ (971 : ℤ) := mul_le_mul_of_nonneg_left h2 (by positivity)
      _ = 2 ^ 1024 := by
        rw [show (971 : ℤ) = ((971 : ℕ) : ℤ) by norm_num, zpow_natCast, ← pow_add]
  have hr : F64.rnd v = x := by
    by_cases h0 : x = 0
    · rw [h0] at hv ⊢
      have : v = 0 := by
        have := hv; simp at this; exact this
      rw [this]; exact F64.rnd_zero
    · have hpk : 2 ^ (52 + 1) < 10 ^ (p - 1) :=
        lt_of_lt_of_le (by norm_num : 2 ^ (52 + 1) < 10 ^ 16) (Nat.pow_le_pow_right (by norm_num) (by omega))
      have hc := lt_of_le_of_lt hv (close_of_digits (k := 52) hpk (by omega) h0)
      exact rnd_unique (k := 52) (emin := -1074) hxdef (by simpa using hm) (by norm_num) he hc
  unfold F64.round
  rw [hr, if_neg (not_le.2 (lt_of_le_of_lt (le_abs_self _) hlt)),
    if_neg (not_le.2 (by have := neg_abs_le x; linarith))]

/-- Every finite `double` is written as a word, from which it is read again exactly. -/
theorem C90_double (x : ℝ) (hx : IsDouble x) :
    UrdfText.Spec.Word (putDouble (fin x)) ∧ getDouble (putDouble (fin x)) = some x := by
  obtain ⟨h1, h2⟩ := printReal_noBlank (p := 17) (by norm_num) x
  refine ⟨⟨h2, fun c hc => ?_⟩, parse_double le_rfl hx⟩
  exact (UrdfText.isBlank_not c).1 (h1 c hc)

/-- The number nearest to 0.1. -/
example : IsDouble (3602879701896397 * (2 : ℝ) ^ (-55 : ℤ)) :=
  ⟨3602879701896397, -55, by norm_num, by norm_num, by norm_num, by norm_num⟩

/-- The arrays of three finite `double` are read again exactly (`C72_written` with the numbers that are
really written). -/
theorem C90_array (a : Urdf.Array3d) (h : ∀ i, IsDouble (a i)) :
    UrdfText.getValue getDouble (UrdfText.putValue (fun x => putDouble (fin x)) a) = some a :=
  UrdfText.C72_written _ _ a fun i => C90_double _ (h i)

example : ∀ i, IsDouble ((![3602879701896397 * (2 : ℝ) ^ (-55 : ℤ), -1, 0] : Urdf.Array3d) i) := by
  intro i
  fin_cases i
  · exact ⟨3602879701896397, -55, by norm_num, by norm_num, by norm_num, by norm_num⟩
  · exact ⟨-1, 0, by norm_num, by norm_num, by norm_num, by norm_num⟩
  · exact ⟨0, 0, by norm_num, by norm_num, by norm_num, by norm_num⟩

/-- Nine digits are enough for a `float`. -/
theorem C90_float (p : ℕ) (hp : 9 ≤ p) (x : ℝ) (hx : Rep x) : parse F32.round (print p (fin x)) = some x := by
  apply parse_print (by omega)
  intro v hv
  have hx' := hx
  obtain ⟨m, e, hm, he, he', rfl⟩ := hx
  set x := (m : ℝ) * (2 : ℝ) ^ e with hxdef
  have hr : F32.rnd v = x := by
    by_cases h0 : x = 0
    · rw [h0] at hv ⊢
      have : v = 0 := by
        have := hv; simp at this; exact this
      rw [this]; exact F32.rnd_zero
    · have hpk : 2 ^ (23 + 1) < 10 ^ (p - 1) :=
        lt_of_lt_of_le (by norm_num : 2 ^ (23 + 1) < 10 ^ 8) (Nat.pow_le_pow_right (by norm_num) (by omega))
      have hc := lt_of_le_of_lt hv (close_of_digits (k := 23) hpk (by omega) h0)
      exact rnd_unique (k := 23) (emin := -149) hxdef (by simpa using hm) (by norm_num) he hc
  have := round_rep hx'
  unfold F32.round at this ⊢
  rw [hr]
  rwa [rnd_of_grid hx'.grid] at this

/-- The number nearest to 0.1. -/
example : Rep (13421773 * (2 : ℝ) ^ (-27 : ℤ)) :=
  ⟨13421773, -27, by norm_num, by norm_num, by norm_num, by norm_num⟩

theorem print_near_one (p : ℕ) (x : ℝ) (hp : 0 < p) (hd : digits (10 ^ (p - 1)) = 1 :: List.replicate (p - 1) 0) (h1 : 1 ≤ x)
    (h10 : x < 10) (hc : |x * 10 ^ (p - 1) - 10 ^ (p - 1)| < 1 / 2) : print p (fin x) = ['1'] := by
  have hlog : Int.log 10 x = 0 := by
    apply le_antisymm
    · have := (Int.lt_zpow_iff_log_lt (b := 10) (x := 1) (by norm_num) (by linarith : 0 < x)).1 (by simpa using h10)
      omega
    · have := (Int.zpow_le_iff_le_log (b := 10) (x := 0) (by norm_num) (by linarith : 0 < x)).1 (by simpa using h1)
      exact this
  have hn : nearestInt (x / (10 : ℝ) ^ ((0 : ℤ) - ((p : ℤ) - 1))) = ((10 ^ (p - 1) : ℕ) : ℤ) := by
    apply nearestInt_of_close
    have : x / (10 : ℝ) ^ ((0 : ℤ) - ((p : ℤ) - 1)) = x * 10 ^ (p - 1) := by
      rw [zero_sub, zpow_neg, div_inv_eq_mul, ← zpow_natCast, Nat.cast_sub hp]; norm_num
    rw [this]; push_cast; exact hc
  have hr : roundDigits p x = (10 ^ (p - 1), 0) := by
    unfold roundDigits
    dsimp only
    rw [hlog, hn, Int.toNat_natCast, if_neg]
    intro h
    have := Nat.pow_right_injective (le_refl 2 |>.trans (by norm_num : 2 ≤ 10)) h
    omega
  have hs : strip (List.replicate (p - 1) 0) = [] := by
    unfold strip
    rw [List.rdropWhile_eq_nil_iff]
    intro c hc
    simpa using (List.mem_replicate.1 hc).2
  simp only [print, printReal, printPos, hr, hd]
  rw [if_neg (by linarith), if_neg (by linarith), if_pos ⟨by norm_num, by exact_mod_cast hp⟩, if_pos le_rfl]
  simp [point, hs, Nat.digitChar]

/-- With fewer digits, `digits10 + 1` (16 for `double` and 7 for `float`), the number that follows 1 is written as
1 is: no reader can tell them apart. -/
theorem C90_too_few :
    (IsDouble (1 + 2 ^ (-52 : ℤ)) ∧ print 16 (fin (1 + 2 ^ (-52 : ℤ))) = ['1'] ∧ print 16 (fin 1) = ['1']) ∧
    Rep (1 + 2 ^ (-23 : ℤ)) ∧ print 7 (fin (1 + 2 ^ (-23 : ℤ))) = ['1'] ∧ print 7 (fin 1) = ['1'] := by
  have d16 : digits (10 ^ (16 - 1)) = 1 :: List.replicate (16 - 1) 0 := by norm_num [digits]; rfl
  have d7 : digits (10 ^ (7 - 1)) = 1 :: List.replicate (7 - 1) 0 := by norm_num [digits]; rfl
  refine ⟨⟨⟨2 ^ 52 + 1, -52, by norm_num, by norm_num, by norm_num, by norm_num⟩, ?_, ?_⟩,
    ⟨2 ^ 23 + 1, -23, by norm_num, by norm_num, by norm_num, by norm_num⟩, ?_, ?_⟩
  · exact print_near_one 16 _ (by norm_num) d16 (by norm_num) (by norm_num) (by norm_num [abs_of_pos])
  · exact print_near_one 16 _ (by norm_num) d16 (by norm_num) (by norm_num) (by norm_num)
  · exact print_near_one 7 _ (by norm_num) d7 (by norm_num) (by norm_num) (by norm_num [abs_of_pos])
  · exact print_near_one 7 _ (by norm_num) d7 (by norm_num) (by norm_num) (by norm_num)

/-- Infinities and NaN are written as words that are not read. -/
theorem C90_not_finite (f : F64) (hf : ∀ x, f ≠ fin x) : getDouble (putDouble f) = none := by
  cases f with
  | fin x => exact absurd rfl (hf x)
  | _ => simp [putDouble, print, getDouble, parse, UrdfText.isBlank, List.rdropWhile, readReal, readSign, readUnsigned,
      readFraction]

example : ∀ x, pinf ≠ fin x := fun _ => by simp

/-- What is read: blanks, a sign or none, digits, a point and digits or none, an exponent or none, and blanks stand
for the decimal number rounded once; the number is refused if that is infinite. -/
theorem C90_read (round : ℝ → F64) (w1 w2 : List Char) (s : List Char × ℝ) (i f : List ℕ) (X : Option ℤ)
    (h1 : ∀ c ∈ w1, UrdfText.isBlank c = true) (h2 : ∀ c ∈ w2, UrdfText.isBlank c = true) (hs : s ∈ signs)
    (hi : ∀ d ∈ i, d < 10) (hf : ∀ d ∈ f, d < 10) (hne : i ≠ []) :
    parse round (w1 ++ (s.1 ++ point i f ++ (X.map exponent).getD []) ++ w2) =
      match round (s.2 * (value (i ++ f) * (10 : ℝ) ^ (X.getD 0 - f.length))) with
      | fin y => some y
      | _ => none := by
  have hb : NoBlank (point i f ++ (X.map exponent).getD []) := by
    apply noBlank_append (noBlank_point hi hf)
    cases X with
    | none => intro c hc; simp at hc
    | some X => exact noBlank_exponent X
  have hb' : NoBlank (s.1 ++ point i f ++ (X.map exponent).getD []) := by
    rw [List.append_assoc]
    apply noBlank_append _ hb
    simp only [signs, List.mem_cons, List.not_mem_nil, or_false] at hs
    rcases hs with rfl | rfl | rfl <;> intro c hc <;> simp at hc <;> rw [hc] <;> decide
  obtain ⟨d, i', rfl⟩ := List.exists_cons_of_ne_nil hne
  have hd := digitChar_digit (hi d (by simp))
  have hp : ∃ r, point (d :: i') f ++ (X.map exponent).getD [] = d.digitChar :: r := ⟨_, by simp [point]; rfl⟩
  have hn : s.1 ++ point (d :: i') f ++ (X.map exponent).getD [] ≠ [] := by
    obtain ⟨r, hr⟩ := hp
    rw [List.append_assoc, hr]; simp
  have hu : readUnsigned (point (d :: i') f ++ (X.map exponent).getD []) =
      some (value (d :: i' ++ f) * (10 : ℝ) ^ (X.getD 0 - (f.length : ℤ))) := by
    rw [readUnsigned_point hi hf hne, value_eq_big]
    · cases X with
      | none => simp [readExponent]
      | some X => simp [readExponent_exponent]
    · intro c hc
      cases X with
      | none => simp at hc
      | some X => simp [exponent] at hc; rw [← hc]; decide
  have hr : readReal (s.1 ++ point (d :: i') f ++ (X.map exponent).getD []) =
      some (s.2 * (value (d :: i' ++ f) * (10 : ℝ) ^ (X.getD 0 - (f.length : ℤ)))) := by
    rw [List.append_assoc]
    simp only [signs, List.mem_cons, List.not_mem_nil, or_false] at hs
    rcases hs with rfl | rfl | rfl
    · obtain ⟨r, hr⟩ := hp
      have : readSign (d.digitChar :: r) = (false, d.digitChar :: r) := by
        obtain ⟨-, -, -, h5, h6⟩ := hd
        simp [readSign, h5, h6]
      unfold readReal
      rw [List.nil_append, hr, this]
      dsimp only
      rw [← hr, hu]; simp
    · unfold readReal
      simp only [List.singleton_append, readSign]
      rw [if_neg (by decide), if_pos trivial]
      dsimp only
      rw [hu]; simp
    · unfold readReal
      simp only [List.singleton_append, readSign, if_true]
      rw [hu]; simp
  unfold parse
  rw [trim_blanks h1 h2 hb' hn, hr]
  rfl

/-- " -12.5e+03 ". -/
example : (([' '] ++ (['-'] ++ point [1, 2] [5] ++ ((some 3).map exponent).getD []) ++ ['\n']) : List Char) =
    [' ', '-', '1', '2', '.', '5', 'e', '+', '0', '3', '\n'] ∧
    ((['-'], -1) : List Char × ℝ) ∈ signs ∧ value ([1, 2] ++ [5]) = 125 := by
  refine ⟨by decide, by simp [signs], by simp [value]⟩

/-- A number beyond the largest `double` is refused. -/
theorem C90_too_large (X : ℕ) (hX : 309 ≤ X) : getDouble (['1'] ++ exponent X) = none := by
  have h := C90_read F64.round [] [] ([], 1) [1] [] (some X) (by simp) (by simp) (by simp [signs]) (by simp) (by simp)
    (by simp)
  have e : ([] ++ (([], (1 : ℝ)).1 ++ point [1] [] ++ ((some (X : ℤ)).map exponent).getD []) ++ [] : List Char) =
      ['1'] ++ exponent X := by simp [point, Nat.digitChar]
  rw [e] at h
  unfold getDouble
  rw [h]
  have hv : ((1 : ℝ) * ((value ([1] ++ []) : ℕ) * (10 : ℝ) ^ ((some (X : ℤ)).getD 0 - (([] : List ℕ).length : ℤ)))) =
      10 ^ X := by simp [value]
  dsimp only
  rw [hv]
  have h10 : (2 : ℝ) ^ 1025 ≤ 10 ^ X := by
    have a : (10 : ℝ) ^ 309 ≤ 10 ^ X := pow_le_pow_right₀ (by norm_num) hX
    have b : (2 : ℝ) ^ 1025 ≤ 10 ^ 309 := by
      have c : (2 : ℝ) ^ 1025 = (2 ^ 41) ^ 25 := by rw [← pow_mul]
      have d : (10 : ℝ) ^ 309 = (10 ^ 12) ^ 25 * 10 ^ 9 := by rw [← pow_mul, ← pow_add]
      have e : (2 : ℝ) ^ 41 ≤ (10 ^ 12) * (22 / 10) := by norm_num
      rw [c, d]
      refine (pow_le_pow_left₀ (by positivity) e 25).trans ?_
      rw [mul_pow]
      exact mul_le_mul_of_nonneg_left (by norm_num) (by positivity)
    exact b.trans a
  have hr := F64.rnd_gen ((10 : ℝ) ^ X)
  have hc : (2 : ℝ) ^ 1024 ≤ F64.rnd (10 ^ X) := by
    rw [abs_of_pos (pow_pos (by norm_num : (0 : ℝ) < 10) X)] at hr
    have h1 := (abs_le.1 hr).1
    have e1 : (2 : ℝ) ^ (-53 : ℤ) ≤ 1 / 4 := by norm_num
    have e2 : (2 : ℝ) ^ (-1075 : ℤ) ≤ 1 := zpow_le_one_of_nonpos₀ (by norm_num) (by norm_num)
    have e3 : (2 : ℝ) ^ 1025 = 2 * 2 ^ 1024 := by rw [← pow_succ']
    have e4 : (4 : ℝ) ≤ 2 ^ 1024 := by
      calc (4 : ℝ) = 2 ^ 2 := by norm_num
        _ ≤ 2 ^ 1024 := pow_le_pow_right₀ (by norm_num) (by norm_num)
    rw [e3] at h10
    generalize (2 : ℝ) ^ 1024 = A at *
    generalize (10 : ℝ) ^ X = B at *
    generalize (2 : ℝ) ^ (-53 : ℤ) = C at *
    generalize (2 : ℝ) ^ (-1075 : ℤ) = D at *
    clear e3 hv h e
    have e5 := mul_le_mul_of_nonneg_right e1 (by linarith : 0 ≤ B)
    linarith
  unfold F64.round
  rw [if_pos hc]

example : (309 : ℕ) ≤ 400 := by norm_num

end AlMath.Decimal
