import Verif.Props.C40
import Verif.Model.FloatDsp
import Verif.Lemmas.FloatDot

/-!
C94: the digital filter in single precision.
-/

namespace AlMath

namespace Spec

open Finset in
/-- `h` is the response of the recursive part of a filter with output weights `v` to a unit impulse at time 0. Not in
/repo: specification. -/
def IsImpulse (v : List ℝ) (h : ℤ → ℝ) : Prop :=
  (∀ z, z < 0 → h z = 0) ∧
  ∀ z, 0 ≤ z → h z = (if z = 0 then 1 else 0) + ∑ i ∈ range v.length, h (z - v.length + i) * v.getD i 0

/-- The sum of the magnitudes of weights. Not in /repo: specification. -/
noncomputable def absSum (w : List ℝ) : ℝ := ∑ i ∈ Finset.range w.length, |w.getD i 0|

/-- Allowed error of a filter in single precision: `X` bounds the inputs, `Y` the exact outputs, `H` the sum of the
magnitudes of the impulse response. The second part is for numbers too small for the format. Not in /repo:
specification. -/
noncomputable def filterError (wIn wOut : List ℝ) (g X Y H : ℝ) : ℝ :=
  2 * H * ((wIn.length + wOut.length + 1) * 2 ^ (-22 : ℤ) * (absSum wIn * (X / |g|) + absSum wOut * Y) +
    (4 * (wIn.length + wOut.length) + 2 * absSum wIn) * 2 ^ (-150 : ℤ))

end Spec

open Spec Finset

/-! ### Errors in the difference equation -/

/-- Variation of constants: values that satisfy the recursion up to errors `d` are the convolution of the errors with the
impulse response. -/
theorem impulse_conv (v : List ℝ) (h e d : ℤ → ℝ) (hh : IsImpulse v h) (N : ℕ) (he : ∀ z, z < 0 → e z = 0)
    (hd : ∀ n : ℕ, n < N → e n = d n + ∑ i ∈ range v.length, e (n - v.length + i) * v.getD i 0) (n : ℕ) (hn : n < N) :
    e n = ∑ m ∈ range N, h ((n : ℤ) - m) * d m := by
  have hF : ∀ k : ℕ, k < N → ∑ m ∈ range N, h ((k : ℤ) - m) * d m =
      d k + ∑ i ∈ range v.length, (∑ m ∈ range N, h ((k : ℤ) - v.length + i - m) * d m) * v.getD i 0 := by
    intro k hk
    have e1 : ∀ m ∈ range N, h ((k : ℤ) - m) * d m =
        (if m = k then d m else 0) + ∑ i ∈ range v.length, h ((k : ℤ) - v.length + i - m) * d m * v.getD i 0 := by
      intro m _
      by_cases hm : (k : ℤ) - m < 0
      · rw [hh.1 _ hm, if_neg (by omega)]
        rw [zero_mul, zero_add, eq_comm]
        apply sum_eq_zero
        intro i hi
        have := mem_range.1 hi
        rw [hh.1 _ (by omega)]
        ring
      · rw [hh.2 _ (by omega)]
        by_cases hmk : m = k
        · subst hmk
          rw [if_pos (by omega), if_pos rfl, add_mul, one_mul, sum_mul]
          congr 1
          apply sum_congr rfl
          intro i _
          rw [show (m : ℤ) - m - v.length + i = m - v.length + i - m by ring]
          ring
        · rw [if_neg (by omega), if_neg hmk, zero_add, zero_add, sum_mul]
          apply sum_congr rfl
          intro i _
          rw [show (k : ℤ) - m - v.length + i = k - v.length + i - m by ring]
          ring
    rw [sum_congr rfl e1, sum_add_distrib, sum_ite_eq' (range N) k (fun m => d (m : ℤ)), if_pos (mem_range.2 hk),
      sum_comm]
    congr 1
    apply sum_congr rfl
    intro i _
    rw [sum_mul]
  have hneg : ∀ z : ℤ, z < 0 → ∑ m ∈ range N, h (z - m) * d m = 0 := by
    intro z hz
    apply sum_eq_zero
    intro m _
    rw [hh.1 _ (by omega), zero_mul]
  induction n using Nat.strong_induction_on with
  | _ n ih =>
    rw [hd n hn, hF n hn]
    congr 1
    apply sum_congr rfl
    intro i hi
    have hi := mem_range.1 hi
    congr 1
    by_cases hz : (n : ℤ) - v.length + i < 0
    · rw [he _ hz, hneg _ hz]
    · obtain ⟨k, hk⟩ := Int.eq_ofNat_of_zero_le (not_lt.1 hz)
      rw [hk]
      exact ih k (by omega) (by omega)

theorem impulse_bound (v : List ℝ) (h e : ℤ → ℝ) (hh : IsImpulse v h) (N : ℕ) (H δ : ℝ) (he : ∀ z, z < 0 → e z = 0)
    (hH : ∀ M : ℕ, ∑ m ∈ range M, |h m| ≤ H)
    (hd : ∀ n : ℕ, n < N → |e n - ∑ i ∈ range v.length, e (n - v.length + i) * v.getD i 0| ≤ δ) (n : ℕ) (hn : n < N) :
    |e n| ≤ H * δ := by
  have := impulse_conv v h e (fun z => e z - ∑ i ∈ range v.length, e (z - v.length + i) * v.getD i 0) hh (n + 1) he
    (fun n _ => by ring) n (by omega)
  rw [this]
  refine (abs_sum_le_sum_abs _ _).trans ?_
  have h0 : 0 ≤ δ := (abs_nonneg _).trans (hd n hn)
  have h1 : ∀ m ∈ range (n + 1), |h ((n : ℤ) - m) * (e m - ∑ i ∈ range v.length, e (m - v.length + i) * v.getD i 0)| ≤
      |h ((n : ℤ) - m)| * δ := by
    intro m hm
    have hm := mem_range.1 hm
    rw [abs_mul]
    exact mul_le_mul_of_nonneg_left (hd m (by omega)) (abs_nonneg _)
  refine (sum_le_sum h1).trans ?_
  rw [← sum_mul]
  refine mul_le_mul_of_nonneg_right ?_ h0
  have h2 := sum_range_reflect (fun m : ℕ => |h (m : ℤ)|) (n + 1)
  refine le_trans (le_of_eq ?_) (hH (n + 1))
  rw [← h2]
  apply sum_congr rfl
  intro m hm
  have hm := mem_range.1 hm
  congr 2
  omega

/-! ### Impulse responses -/

/-- The impulse response at non-negative times. Helper of the proofs. Not in /repo: specification. -/
noncomputable def impulseNat (v : List ℝ) : ℕ → ℝ
  | n => (if n = 0 then 1 else 0) +
      ∑ i : Fin v.length, if v.length ≤ n + i then impulseNat v (n + i - v.length) * v.getD i 0 else 0
termination_by n => n
decreasing_by omega

/-- The impulse response. Helper of the proofs. Not in /repo: specification. -/
noncomputable def impulse (v : List ℝ) (z : ℤ) : ℝ := if z < 0 then 0 else impulseNat v z.toNat

theorem impulse_isImpulse (v : List ℝ) : IsImpulse v (impulse v) := by
  refine ⟨fun z hz => if_pos hz, ?_⟩
  intro z hz
  obtain ⟨n, rfl⟩ := Int.eq_ofNat_of_zero_le hz
  rw [impulse, if_neg (by omega), Int.toNat_natCast, impulseNat, ← Fin.sum_univ_eq_sum_range
    (fun i => impulse v ((n : ℤ) - v.length + i) * v.getD i 0)]
  congr 1
  · simp
  · apply sum_congr rfl
    intro i _
    by_cases h : v.length ≤ n + i
    · rw [if_pos h, impulse, if_neg (by omega)]
      congr 2
      omega
    · rw [if_neg h, impulse, if_pos (by omega), zero_mul]

theorem shift_sum_le (f : ℤ → ℝ) (h0 : ∀ z, 0 ≤ f z) (hn : ∀ z, z < 0 → f z = 0) (N s : ℕ) :
    ∑ n ∈ range N, f ((n : ℤ) - s) ≤ ∑ n ∈ range N, f n := by
  induction s generalizing f with
  | zero => simp
  | succ s ih =>
    have := ih (fun z => f (z - 1)) (fun z => h0 _) (fun z hz => hn _ (by omega))
    have e : ∀ n ∈ range N, f ((n : ℤ) - (s + 1 : ℕ)) = f ((n : ℤ) - s - 1) := by
      intro n _
      congr 1
      push_cast
      ring
    rw [sum_congr rfl e]
    refine this.trans ?_
    cases N with
    | zero => simp
    | succ N =>
      rw [sum_range_succ']
      have e2 : ∀ n ∈ range N, f (((n + 1 : ℕ) : ℤ) - 1) = f n := by
        intro n _
        congr 1
        push_cast
        ring
      rw [sum_congr rfl e2, sum_range_succ]
      rw [hn _ (by simp)]
      linarith [h0 (N : ℤ)]

theorem absSum_nonneg (v : List ℝ) : 0 ≤ absSum v := sum_nonneg fun _ _ => abs_nonneg _

theorem impulse_sum (v : List ℝ) (h : ℤ → ℝ) (hh : IsImpulse v h) (hv : absSum v < 1) (N : ℕ) :
    ∑ n ∈ range N, |h n| ≤ 1 / (1 - absSum v) := by
  have h1 : ∀ n ∈ range N, |h n| ≤ (if n = 0 then 1 else 0) + ∑ i ∈ range v.length,
      |h ((n : ℤ) - (v.length - i : ℕ))| * |v.getD i 0| := by
    intro n _
    rw [hh.2 n (by omega)]
    refine (abs_add_le _ _).trans ?_
    refine add_le_add ?_ ?_
    · split_ifs <;> simp_all
    · refine (abs_sum_le_sum_abs _ _).trans (le_of_eq ?_)
      apply sum_congr rfl
      intro i hi
      have := mem_range.1 hi
      rw [abs_mul]
      congr 3
      omega
  have h2 := sum_le_sum h1
  rw [sum_add_distrib, sum_comm] at h2
  have h3 : ∑ n ∈ range N, (if n = 0 then (1 : ℝ) else 0) ≤ 1 := by
    rw [sum_ite_eq' (range N) 0 (fun _ => (1 : ℝ))]
    split_ifs <;> norm_num
  have h4 : ∀ i ∈ range v.length, ∑ n ∈ range N, |h ((n : ℤ) - (v.length - i : ℕ))| * |v.getD i 0| ≤
      (∑ n ∈ range N, |h n|) * |v.getD i 0| := by
    intro i _
    rw [← sum_mul]
    exact mul_le_mul_of_nonneg_right (shift_sum_le (fun z => |h z|) (fun _ => abs_nonneg _)
      (fun z hz => by rw [hh.1 z hz, abs_zero]) N _) (abs_nonneg _)
  have h5 := sum_le_sum h4
  rw [← mul_sum] at h5
  change _ ≤ (∑ n ∈ range N, |h n|) * absSum v at h5
  rw [le_div_iff₀ (by linarith)]
  linarith


/-! ### One output in single precision -/

namespace F32

theorem read_map_fin (l : List ℝ) (i : ℕ) (h : i < l.length) : Res.read (l.map fin) i = .ok (fin (l.getD i 0)) := by
  unfold Res.read
  rw [List.getElem?_map, List.getD, List.getElem?_eq_getElem h]
  rfl

/-- A loop of `processFilter` over finite values: the sum of the products up to one rounding of each product and one of
each sum. -/
theorem accumulate_fin (buf w : List ℝ) (is : List ℕ) (a s S : ℝ) (j : ℕ) (ha : Rep a)
    (hs : |a - s| ≤ j * (2 ^ (-22 : ℤ) * S + 2 ^ (-148 : ℤ)))
    (hS : |s| + (is.map fun i => |buf.getD i 0 * w.getD i 0|).sum ≤ S) (hj : j + is.length ≤ 2 ^ 21) (hb : S ≤ 2 ^ 120)
    (h1 : ∀ i ∈ is, i < buf.length) (h2 : ∀ i ∈ is, i < w.length) :
    ∃ a', DigitalFilter.accumulate (buf.map fin) (w.map fin) is (fin a) = .ok (fin a') ∧ Rep a' ∧
      |a' - (s + (is.map fun i => buf.getD i 0 * w.getD i 0).sum)| ≤
        (j + is.length : ℕ) * (2 ^ (-22 : ℤ) * S + 2 ^ (-148 : ℤ)) := by
  induction is generalizing a s j with
  | nil => exact ⟨a, rfl, ha, by simpa using hs⟩
  | cons i is ih =>
    rw [DigitalFilter.accumulate, read_map_fin _ _ (h1 i (by simp)), Res.bind_ok, read_map_fin _ _ (h2 i (by simp)),
      Res.bind_ok]
    simp only [List.map_cons, List.sum_cons, List.length_cons] at hS hj ⊢
    generalize buf.getD i 0 = b at hS ⊢
    generalize w.getD i 0 = c at hS ⊢
    have hrest : 0 ≤ (is.map fun i => |buf.getD i 0 * w.getD i 0|).sum := by
      apply List.sum_nonneg
      intro x hx
      obtain ⟨k, -, rfl⟩ := List.mem_map.1 hx
      exact abs_nonneg _
    have ht : |s + b * c| ≤ |s| + |b * c| := abs_add_le _ _
    have p1 := rnd_gen (b * c)
    have p2 := rnd_add ha.grid (rnd_grid (b * c))
    have hju : (j : ℝ) * 2 ^ (-24 : ℤ) ≤ 1 / 8 := by
      have : (j : ℝ) ≤ 2097152 := by
        have : j ≤ 2097152 := by omega
        exact_mod_cast this
      rw [two_neg24]
      linarith
    have hj0 : (0 : ℝ) ≤ j := Nat.cast_nonneg _
    have he := eta_pos
    have he1 := eta_le
    have habs : |a + rnd (b * c)| ≤ S + j * (2 ^ (-22 : ℤ) * S + 2 ^ (-148 : ℤ)) +
        (2 ^ (-24 : ℤ) * S + 2 ^ (-150 : ℤ)) := by
      have e : a + rnd (b * c) = (s + b * c) + (a - s) + (rnd (b * c) - b * c) := by ring
      rw [e]
      have q1 := abs_add_le ((s + b * c) + (a - s)) (rnd (b * c) - b * c)
      have q2 := abs_add_le (s + b * c) (a - s)
      have q3 : 2 ^ (-24 : ℤ) * |b * c| ≤ 2 ^ (-24 : ℤ) * S := by
        refine mul_le_mul_of_nonneg_left ?_ (two_zpow_pos _).le
        linarith [abs_nonneg s]
      linarith
    have hS0 : 0 ≤ S := by linarith [abs_nonneg s, abs_nonneg (b * c)]
    have hbc : |b * c| ≤ S := by linarith [abs_nonneg s]
    have h22 : (2 : ℝ) ^ (-22 : ℤ) = 1 / 4194304 := by norm_num
    have hprod : 1 / 4194304 * S + 4 * 2 ^ (-150 : ℤ) ≥ 0 := by positivity
    have hk : (j : ℝ) * (2 ^ (-22 : ℤ) * S + 2 ^ (-148 : ℤ)) * 2 ^ (-24 : ℤ) ≤
        1 / 8 * (2 ^ (-22 : ℤ) * S + 2 ^ (-148 : ℤ)) := by
      rw [h22, four_eta]
      calc _ = (j : ℝ) * 2 ^ (-24 : ℤ) * (1 / 4194304 * S + 4 * 2 ^ (-150 : ℤ)) := by ring
        _ ≤ _ := mul_le_mul_of_nonneg_right hju hprod
    have hk2 : (j : ℝ) * (2 ^ (-22 : ℤ) * S + 2 ^ (-148 : ℤ)) ≤ 2 * S + 2 := by
      have h5 : (2 : ℝ) ^ (-150 : ℤ) ≤ 1 / 16777216 := by
        rw [← two_neg24]
        exact zpow_le_zpow_right₀ (by norm_num) (by norm_num)
      rw [h22, four_eta]
      generalize (2 : ℝ) ^ (-150 : ℤ) = η at *
      have : (j : ℝ) ≤ 2097152 := by
        have : j ≤ 2097152 := by omega
        exact_mod_cast this
      have h3 : (j : ℝ) * (1 / 4194304 * S + 4 * η) ≤ 2097152 * (1 / 4194304 * S + 4 * η) :=
        mul_le_mul_of_nonneg_right this hprod
      linarith
    have hbig : |a + rnd (b * c)| ≤ 2 ^ 127 := by
      rw [two_neg24] at habs
      have : (2 : ℝ) ^ 120 * 4 + 8 ≤ 2 ^ 127 := by norm_num
      generalize (2 : ℝ) ^ 120 = M at *
      generalize (2 : ℝ) ^ 127 = M' at *
      linarith
    rw [mul_fin (hbc.trans (hb.trans (by norm_num))), add_fin hbig]
    have hstep : |rnd (a + rnd (b * c)) - (s + b * c)| ≤ (j + 1 : ℕ) * (2 ^ (-22 : ℤ) * S + 2 ^ (-148 : ℤ)) := by
      have e : rnd (a + rnd (b * c)) - (s + b * c) = (rnd (a + rnd (b * c)) - (a + rnd (b * c))) + (a - s) +
        (rnd (b * c) - b * c) := by ring
      rw [e]
      have q1 := abs_add_le ((rnd (a + rnd (b * c)) - (a + rnd (b * c))) + (a - s)) (rnd (b * c) - b * c)
      have q2 := abs_add_le (rnd (a + rnd (b * c)) - (a + rnd (b * c))) (a - s)
      have q3 : 2 ^ (-24 : ℤ) * |a + rnd (b * c)| ≤ 2 ^ (-24 : ℤ) * (S + j * (2 ^ (-22 : ℤ) * S + 2 ^ (-148 : ℤ)) +
        (2 ^ (-24 : ℤ) * S + 2 ^ (-150 : ℤ))) := mul_le_mul_of_nonneg_left habs (two_zpow_pos _).le
      have q4 : 2 ^ (-24 : ℤ) * |b * c| ≤ 2 ^ (-24 : ℤ) * S := mul_le_mul_of_nonneg_left hbc (two_zpow_pos _).le
      push_cast
      clear hb hbig hju
      rw [h22, four_eta] at hs hk q3 ⊢
      rw [two_neg24] at p1 p2 hk q3 q4
      clear ih
      generalize (2 : ℝ) ^ (-150 : ℤ) = η at *
      have ej : ((j : ℝ) + 1) * (1 / 4194304 * S + 4 * η) = j * (1 / 4194304 * S + 4 * η) + (1 / 4194304 * S + 4 * η) := by
        ring
      rw [ej]
      generalize (j : ℝ) * (1 / 4194304 * S + 4 * η) = J at *
      linarith
    obtain ⟨a', e', r', q'⟩ := ih (rnd (a + rnd (b * c))) (s + b * c) (j + 1) (rnd_rep hbig) hstep (by linarith) (by omega)
      (fun i hi => h1 i (by simp [hi])) (fun i hi => h2 i (by simp [hi]))
    refine ⟨a', e', r', ?_⟩
    rw [show j + (is.length + 1) = j + 1 + is.length by ring, ← add_assoc]
    exact q'


/-- State of a filter after a list of inputs with the given outputs. Helper of the proofs. Not in /repo:
specification. -/
noncomputable def FilterAfter (wIn wOut : List ℝ) (g : ℝ) (xs ys : List ℝ) : DigitalFilter :=
  ⟨⟨wIn.length, lastN wIn.length ((xs.map fun x => rnd (x / g)).map fin)⟩, ⟨wOut.length, lastN wOut.length (ys.map fin)⟩,
    fin g, wIn.map fin, wOut.map fin⟩

theorem lastN_map {α β : Type} (f : α → β) (n : ℕ) (l : List α) : lastN n (l.map f) = (lastN n l).map f := by
  simp [lastN, List.map_drop]

theorem sum_range_map (f : ℕ → ℝ) (n : ℕ) : ((List.range n).map f).sum = ∑ i ∈ range n, f i := rfl

/-- Bound on the error of one output. Helper of the proofs. Not in /repo: specification. -/
noncomputable def stepErr (k : ℕ) (A Q ρ B : ℝ) : ℝ :=
  k * (2 ^ (-22 : ℤ) * (A * (Q + (2 ^ (-24 : ℤ) * Q + 2 ^ (-150 : ℤ))) + ρ * B) + 2 ^ (-148 : ℤ)) +
    A * (2 ^ (-24 : ℤ) * Q + 2 ^ (-150 : ℤ))

theorem getD_map_zero {β : Type} (l : List β) (f : β → ℝ) (z : β) (i : ℕ) (h : i < l.length) :
    (l.map f).getD i 0 = f (l.getD i z) := by
  simp [List.getD, List.getElem?_eq_getElem h]

theorem filter_step (wIn wOut : List ℝ) (g : ℝ) (hg : g ≠ 0) (xs ys : List ℝ) (x X B : ℝ)
    (hlen : ys.length = xs.length) (hx : Rep x) (hxs : ∀ n, n < xs.length → |xs.getD n 0| ≤ X) (hxX : |x| ≤ X)
    (hys : ∀ n, n < ys.length → |ys.getD n 0| ≤ B) (hB : 0 ≤ B)
    (hk : wIn.length + wOut.length ≤ 2 ^ 21) (hQ : X / |g| ≤ 2 ^ 120)
    (hS : absSum wIn * (X / |g| + (2 ^ (-24 : ℤ) * (X / |g|) + 2 ^ (-150 : ℤ))) + absSum wOut * B ≤ 2 ^ 120) :
    ∃ y, (FilterAfter wIn wOut g xs ys).process (fin x) =
        .ok (fin y, FilterAfter wIn wOut g (xs ++ [x]) (ys ++ [y])) ∧ Rep y ∧
      if xs.length + 1 < wIn.length ∨ xs.length < wOut.length then y = x
      else |y - ((∑ i ∈ range wIn.length, (xs ++ [x]).getD (xs.length + 1 - wIn.length + i) 0 / g * wIn.getD i 0) +
        ∑ i ∈ range wOut.length, ys.getD (xs.length - wOut.length + i) 0 * wOut.getD i 0)| ≤
          stepErr (wIn.length + wOut.length) (absSum wIn) (X / |g|) (absSum wOut) B := by
  have hX : 0 ≤ X := (abs_nonneg x).trans hxX
  have hgx : |x / g| ≤ X / |g| := by
    rw [abs_div]
    exact div_le_div_of_nonneg_right hxX (abs_nonneg g)
  have hdiv : div (fin x) (fin g) = fin (rnd (x / g)) := by
    rw [div, if_neg hg, round_fin (hgx.trans (hQ.trans (by norm_num)))]
  have hmap : (xs.map fun x => rnd (x / g)).map fin ++ [fin (rnd (x / g))] =
      ((xs ++ [x]).map fun x => rnd (x / g)).map fin := by simp
  have hmapy : ∀ y : ℝ, ys.map fin ++ [fin y] = (ys ++ [y]).map fin := by simp
  have hfull : ((⟨wIn.length, lastN wIn.length (((xs ++ [x]).map fun x => rnd (x / g)).map fin)⟩ : CircBuf F32).full ∧
      (⟨wOut.length, lastN wOut.length (ys.map fin)⟩ : CircBuf F32).full) ↔
      ¬ (xs.length + 1 < wIn.length ∨ xs.length < wOut.length) := by
    unfold CircBuf.full
    simp only [lastN_len]
    simp only [List.length_map, List.length_append, List.length_singleton, hlen]
    omega
  unfold DigitalFilter.process FilterAfter
  dsimp only
  rw [hdiv, push_lastN, hmap]
  by_cases hc : xs.length + 1 < wIn.length ∨ xs.length < wOut.length
  · refine ⟨x, ?_, hx, by rw [if_pos hc]⟩
    rw [if_neg (by rw [hfull]; exact not_not.2 hc), Res.bind_ok, push_lastN, hmapy]
  · have hf := hfull.2 hc
    rw [if_pos hf]
    simp only [if_neg hc]
    -- the values in the delay lines
    have hall : ∀ n, n < (xs ++ [x]).length → |(xs ++ [x]).getD n 0| ≤ X := by
      intro n hn
      simp only [List.length_append, List.length_singleton] at hn
      rcases Nat.lt_succ_iff_lt_or_eq.1 hn with hn | hn
      · have : (xs ++ [x]).getD n 0 = xs.getD n 0 := by simp [List.getD, List.getElem?_append_left hn]
        rw [this]
        exact hxs n hn
      · subst hn
        simpa [List.getD] using hxX
    set q := (xs ++ [x]).map fun x => rnd (x / g) with hq
    have hqlen : q.length = xs.length + 1 := by simp [hq]
    have hlin : (lastN wIn.length q).length = wIn.length := (lastN_len _ _).2 (by omega)
    have hlout : (lastN wOut.length ys).length = wOut.length := (lastN_len _ _).2 (by omega)
    have hqi : ∀ i ∈ range wIn.length, (lastN wIn.length q).getD i 0 =
        rnd ((xs ++ [x]).getD (xs.length + 1 - wIn.length + i) 0 / g) := by
      intro i hi
      have hi := mem_range.1 hi
      rw [lastN_getD, hqlen, hq, getD_map_zero _ _ 0 _ (by simp; omega)]
    have hqerr : ∀ i ∈ range wIn.length, |(lastN wIn.length q).getD i 0 -
        (xs ++ [x]).getD (xs.length + 1 - wIn.length + i) 0 / g| ≤ 2 ^ (-24 : ℤ) * (X / |g|) + 2 ^ (-150 : ℤ) := by
      intro i hi
      rw [hqi i hi]
      have hi := mem_range.1 hi
      refine (rnd_gen _).trans ?_
      have := hall (xs.length + 1 - wIn.length + i) (by simp; omega)
      rw [abs_div]
      have h2 : |(xs ++ [x]).getD (xs.length + 1 - wIn.length + i) 0| / |g| ≤ X / |g| :=
        div_le_div_of_nonneg_right this (abs_nonneg g)
      have h3 := mul_le_mul_of_nonneg_left h2 (two_zpow_pos (-24)).le
      linarith
    have hqabs : ∀ i ∈ range wIn.length, |(lastN wIn.length q).getD i 0| ≤
        X / |g| + (2 ^ (-24 : ℤ) * (X / |g|) + 2 ^ (-150 : ℤ)) := by
      intro i hi
      have h1 := le_of_err (hqerr i hi)
      have hi := mem_range.1 hi
      have h2 : |(xs ++ [x]).getD (xs.length + 1 - wIn.length + i) 0 / g| ≤ X / |g| := by
        rw [abs_div]
        exact div_le_div_of_nonneg_right (hall _ (by simp; omega)) (abs_nonneg g)
      linarith
    have hyabs : ∀ i ∈ range wOut.length, |(lastN wOut.length ys).getD i 0| ≤ B := by
      intro i hi
      have hi := mem_range.1 hi
      rw [lastN_getD]
      exact hys _ (by omega)
    set Q := X / |g| with hQdef
    set Q' := Q + (2 ^ (-24 : ℤ) * Q + 2 ^ (-150 : ℤ)) with hQ'
    set S := absSum wIn * Q' + absSum wOut * B with hSdef
    have hs1 : ∑ i ∈ range wIn.length, |(lastN wIn.length q).getD i 0 * wIn.getD i 0| ≤ absSum wIn * Q' := by
      rw [absSum, sum_mul]
      apply sum_le_sum
      intro i hi
      rw [abs_mul, mul_comm]
      exact mul_le_mul_of_nonneg_left (hqabs i hi) (abs_nonneg _)
    have hs2 : ∑ i ∈ range wOut.length, |(lastN wOut.length ys).getD i 0 * wOut.getD i 0| ≤ absSum wOut * B := by
      rw [absSum, sum_mul]
      apply sum_le_sum
      intro i hi
      rw [abs_mul, mul_comm]
      exact mul_le_mul_of_nonneg_left (hyabs i hi) (abs_nonneg _)
    have hout0 : 0 ≤ absSum wOut * B := mul_nonneg (absSum_nonneg _) hB
    have hS0 : 0 ≤ S := by
      have := (sum_nonneg fun i _ => abs_nonneg _).trans hs1
      linarith
    obtain ⟨a1, e1, r1, b1⟩ := accumulate_fin (lastN wIn.length q) wIn (List.range wIn.length) 0 0 S 0 Rep.zero (by simp)
      (by rw [sum_range_map, abs_zero, zero_add]; linarith) (by simp; omega) hS (by simp [hlin]) (by simp)
    rw [lastN_map, List.length_map, e1, Res.bind_ok]
    rw [sum_range_map, zero_add, List.length_range, zero_add] at b1
    have hmid : |∑ i ∈ range wIn.length, (lastN wIn.length q).getD i 0 * wIn.getD i 0| ≤ absSum wIn * Q' :=
      (abs_sum_le_sum_abs _ _).trans hs1
    obtain ⟨a2, e2, r2, b2⟩ := accumulate_fin (lastN wOut.length ys) wOut (List.range wOut.length) a1
      (∑ i ∈ range wIn.length, (lastN wIn.length q).getD i 0 * wIn.getD i 0) S wIn.length r1 b1
      (by rw [sum_range_map]; linarith) (by simpa using hk) hS (by simp [hlout]) (by simp)
    rw [lastN_map, List.length_map, e2, Res.bind_ok]
    refine ⟨a2, ?_, r2, ?_⟩
    · rw [← lastN_map fin wIn.length q, ← lastN_map fin wOut.length ys, push_lastN, hmapy]
    · rw [sum_range_map, List.length_range] at b2
      have hdiff : |(∑ i ∈ range wIn.length, (lastN wIn.length q).getD i 0 * wIn.getD i 0) -
          ∑ i ∈ range wIn.length, (xs ++ [x]).getD (xs.length + 1 - wIn.length + i) 0 / g * wIn.getD i 0| ≤
          absSum wIn * (2 ^ (-24 : ℤ) * Q + 2 ^ (-150 : ℤ)) := by
        rw [← sum_sub_distrib, absSum, sum_mul]
        refine (abs_sum_le_sum_abs _ _).trans ?_
        apply sum_le_sum
        intro i hi
        rw [← sub_mul, abs_mul, mul_comm]
        exact mul_le_mul_of_nonneg_left (hqerr i hi) (abs_nonneg _)
      have hy : ∑ i ∈ range wOut.length, (lastN wOut.length ys).getD i 0 * wOut.getD i 0 =
          ∑ i ∈ range wOut.length, ys.getD (xs.length - wOut.length + i) 0 * wOut.getD i 0 := by
        apply sum_congr rfl
        intro i _
        rw [lastN_getD, hlen]
      rw [hy] at b2
      have e : ∀ a p r s : ℝ, a - (r + s) = (a - (p + s)) + (p - r) := fun a p r s => by ring
      rw [e a2 (∑ i ∈ range wIn.length, (lastN wIn.length q).getD i 0 * wIn.getD i 0)]
      refine (abs_add_le _ _).trans ?_
      exact add_le_add b2 hdiff


/-! ### Whole sequences -/

/-- `zs` satisfies the difference equation up to `δ` for the first `N` inputs. Helper of the proofs. Not in /repo:
specification. -/
def NearResponse (wIn wOut : List ℝ) (g δ : ℝ) (xs zs : List ℝ) (N : ℕ) : Prop :=
  ∀ n, n < N → if n + 1 < wIn.length ∨ n < wOut.length then zs.getD n 0 = xs.getD n 0
    else |zs.getD n 0 - ((∑ i ∈ range wIn.length, xs.getD (n + 1 - wIn.length + i) 0 / g * wIn.getD i 0) +
      ∑ i ∈ range wOut.length, zs.getD (n - wOut.length + i) 0 * wOut.getD i 0)| ≤ δ

theorem near_bound (wIn wOut : List ℝ) (g δ H : ℝ) (h : ℤ → ℝ) (xs ys zs : List ℝ) (N : ℕ) (hδ : 0 ≤ δ)
    (hN : N ≤ xs.length) (hy : IsResponse wIn wOut g xs ys) (hz : NearResponse wIn wOut g δ xs zs N)
    (hh : IsImpulse wOut h) (hH : ∀ M : ℕ, ∑ m ∈ range M, |h m| ≤ H) (n : ℕ) (hn : n < N) :
    |zs.getD n 0 - ys.getD n 0| ≤ H * δ := by
  have raw0 : ∀ m : ℕ, m < N → (m + 1 < wIn.length ∨ m < wOut.length) → zs.getD m 0 - ys.getD m 0 = 0 := by
    intro m hm hr
    have h1 := hz m hm
    rw [if_pos hr] at h1
    rw [h1, hy.2 m (by omega), if_pos hr, sub_self]
  have key := impulse_bound wOut h (fun z => if z < 0 then 0 else zs.getD z.toNat 0 - ys.getD z.toNat 0) hh N H δ
    (fun z hz => if_pos hz) hH ?_ n hn
  · rwa [if_neg (by omega), Int.toNat_natCast] at key
  intro m hm
  rw [if_neg (by omega), Int.toNat_natCast]
  by_cases hr : m + 1 < wIn.length ∨ m < wOut.length
  · rw [raw0 m hm hr, sum_eq_zero]
    · simpa using hδ
    · intro i hi
      have hi := mem_range.1 hi
      by_cases hneg : (m : ℤ) - wOut.length + i < 0
      · rw [if_pos hneg, zero_mul]
      · rw [if_neg hneg, raw0 _ (by omega) (by omega), zero_mul]
  · have h1 := hz m hm
    rw [if_neg hr] at h1
    have h2 := hy.2 m (by omega)
    rw [if_neg hr] at h2
    have h3 : ∑ i ∈ range wOut.length, (if (m : ℤ) - wOut.length + i < 0 then 0
        else zs.getD ((m : ℤ) - wOut.length + i).toNat 0 - ys.getD ((m : ℤ) - wOut.length + i).toNat 0) * wOut.getD i 0 =
        ∑ i ∈ range wOut.length, zs.getD (m - wOut.length + i) 0 * wOut.getD i 0 -
        ∑ i ∈ range wOut.length, ys.getD (m - wOut.length + i) 0 * wOut.getD i 0 := by
      rw [← sum_sub_distrib]
      apply sum_congr rfl
      intro i hi
      have hi := mem_range.1 hi
      rw [if_neg (by omega), show ((m : ℤ) - wOut.length + i).toNat = m - wOut.length + i by omega]
      ring
    rw [h3, h2]
    refine le_trans (le_of_eq ?_) h1
    congr 1
    ring

theorem near_snoc (wIn wOut : List ℝ) (g δ : ℝ) (xs zs rest : List ℝ) (x z : ℝ) (hlen : zs.length = xs.length)
    (hN : NearResponse wIn wOut g δ (xs ++ x :: rest) zs xs.length)
    (hz : if xs.length + 1 < wIn.length ∨ xs.length < wOut.length then z = x
      else |z - ((∑ i ∈ range wIn.length, (xs ++ [x]).getD (xs.length + 1 - wIn.length + i) 0 / g * wIn.getD i 0) +
        ∑ i ∈ range wOut.length, zs.getD (xs.length - wOut.length + i) 0 * wOut.getD i 0)| ≤ δ) :
    NearResponse wIn wOut g δ (xs ++ x :: rest) (zs ++ [z]) (xs ++ [x]).length := by
  have e1 : ∀ k, k < zs.length → (zs ++ [z]).getD k 0 = zs.getD k 0 := by
    intro k hk
    simp [List.getD, List.getElem?_append_left hk]
  have e2 : ∀ k, k < xs.length + 1 → (xs ++ x :: rest).getD k 0 = (xs ++ [x]).getD k 0 := by
    intro k hk
    have : xs ++ x :: rest = (xs ++ [x]) ++ rest := by simp
    rw [this]
    simp only [List.getD]
    rw [List.getElem?_append_left (by simpa using hk)]
  intro n hn
  simp only [List.length_append, List.length_singleton] at hn
  rcases Nat.lt_succ_iff_lt_or_eq.1 hn with hn | hn
  · have h1 := hN n hn
    by_cases hr : n + 1 < wIn.length ∨ n < wOut.length
    · rw [if_pos hr] at h1 ⊢
      rw [e1 n (by omega), h1]
    · rw [if_neg hr] at h1 ⊢
      rw [e1 n (by omega)]
      have : ∑ i ∈ range wOut.length, (zs ++ [z]).getD (n - wOut.length + i) 0 * wOut.getD i 0 =
          ∑ i ∈ range wOut.length, zs.getD (n - wOut.length + i) 0 * wOut.getD i 0 := by
        apply sum_congr rfl
        intro i hi
        have hi := mem_range.1 hi
        rw [e1 _ (by omega)]
      rw [this]
      exact h1
  · subst hn
    have ez : (zs ++ [z]).getD xs.length 0 = z := by rw [← hlen]; simp [List.getD]
    by_cases hr : xs.length + 1 < wIn.length ∨ xs.length < wOut.length
    · rw [if_pos hr] at hz ⊢
      rw [ez, hz]
      simp [List.getD]
    · rw [if_neg hr] at hz ⊢
      rw [ez]
      have h1 : ∑ i ∈ range wOut.length, (zs ++ [z]).getD (xs.length - wOut.length + i) 0 * wOut.getD i 0 =
          ∑ i ∈ range wOut.length, zs.getD (xs.length - wOut.length + i) 0 * wOut.getD i 0 := by
        apply sum_congr rfl
        intro i hi
        have hi := mem_range.1 hi
        rw [e1 _ (by omega)]
      have h2 : ∑ i ∈ range wIn.length, (xs ++ x :: rest).getD (xs.length + 1 - wIn.length + i) 0 / g * wIn.getD i 0 =
          ∑ i ∈ range wIn.length, (xs ++ [x]).getD (xs.length + 1 - wIn.length + i) 0 / g * wIn.getD i 0 := by
        apply sum_congr rfl
        intro i hi
        have hi := mem_range.1 hi
        rw [e2 _ (by omega)]
      rw [h1, h2]
      exact hz

/-- The error of a step is absorbed by the allowed error. -/
theorem stepErr_le {k : ℕ} {A Q ρ Y H E : ℝ} (hk : k ≤ 2 ^ 21) (hA : 0 ≤ A) (hQ : 0 ≤ Q) (hρ : 0 ≤ ρ) (hY : 0 ≤ Y)
    (hH : 0 ≤ H) (hs : (k + 1) * 2 ^ (-22 : ℤ) * (H * ρ) ≤ 1 / 2)
    (hE : E = 2 * H * ((k + 1) * 2 ^ (-22 : ℤ) * (A * Q + ρ * Y) + (4 * k + 2 * A) * 2 ^ (-150 : ℤ))) :
    0 ≤ E ∧ 0 ≤ stepErr k A Q ρ (Y + E) ∧ H * stepErr k A Q ρ (Y + E) ≤ E := by
  have he := eta_pos
  have h22 : (2 : ℝ) ^ (-22 : ℤ) = 1 / 4194304 := by norm_num
  have hk' : (k : ℝ) ≤ 2097152 := by
    have : k ≤ 2097152 := by omega
    exact_mod_cast this
  have hE0 : 0 ≤ E := by rw [hE]; positivity
  have h0 : 0 ≤ stepErr k A Q ρ (Y + E) := by unfold stepErr; positivity
  refine ⟨hE0, h0, ?_⟩
  have hstep : stepErr k A Q ρ (Y + E) ≤ ((k + 1) * 2 ^ (-22 : ℤ) * (A * Q + ρ * Y) + (4 * k + 2 * A) * 2 ^ (-150 : ℤ)) +
      (k + 1) * 2 ^ (-22 : ℤ) * (ρ * E) := by
    unfold stepErr
    rw [h22, two_neg24, four_eta]
    generalize (2 : ℝ) ^ (-150 : ℤ) = η at *
    have n1 : 0 ≤ A * Q := by positivity
    have n2 : 0 ≤ ρ * Y := by positivity
    have n3 : 0 ≤ ρ * E := by positivity
    have n4 : 0 ≤ A * η := by positivity
    have k0 : (0 : ℝ) ≤ k := Nat.cast_nonneg k
    have m1 : (k : ℝ) * (A * Q) ≤ 2097152 * (A * Q) := mul_le_mul_of_nonneg_right hk' n1
    have m2 : (k : ℝ) * (A * η) ≤ 2097152 * (A * η) := mul_le_mul_of_nonneg_right hk' n4
    nlinarith
  have h1 := mul_le_mul_of_nonneg_left hstep hH
  have h2 : H * ((k + 1) * 2 ^ (-22 : ℤ) * (ρ * E)) ≤ 1 / 2 * E := by
    calc _ = (k + 1) * 2 ^ (-22 : ℤ) * (H * ρ) * E := by ring
      _ ≤ _ := mul_le_mul_of_nonneg_right hs hE0
  rw [mul_add] at h1
  have h3 : H * ((k + 1) * 2 ^ (-22 : ℤ) * (A * Q + ρ * Y) + (4 * k + 2 * A) * 2 ^ (-150 : ℤ)) = 1 / 2 * E := by
    rw [hE]; ring
  rw [h3] at h1
  linarith


theorem getD_mem (l : List ℝ) (n : ℕ) (h : n < l.length) : l.getD n 0 ∈ l := by
  rw [List.getD, List.getElem?_eq_getElem h]
  exact List.getElem_mem h

theorem filter_processAll (wIn wOut : List ℝ) (g X Y H : ℝ) (h : ℤ → ℝ) (xsT ys : List ℝ) (hg : g ≠ 0)
    (hxs : ∀ x ∈ xsT, Rep x ∧ |x| ≤ X) (hX : 0 ≤ X) (hY0 : 0 ≤ Y) (hresp : IsResponse wIn wOut g xsT ys)
    (hY : ∀ y ∈ ys, |y| ≤ Y) (himp : IsImpulse wOut h) (hH : ∀ M : ℕ, ∑ m ∈ range M, |h m| ≤ H)
    (hk : wIn.length + wOut.length ≤ 2 ^ 21)
    (hs : ((wIn.length + wOut.length : ℕ) + 1 : ℝ) * 2 ^ (-22 : ℤ) * (H * absSum wOut) ≤ 1 / 2)
    (hQ : X / |g| ≤ 2 ^ 120) (hH0 : 0 ≤ H)
    (hS : absSum wIn * (X / |g| + (2 ^ (-24 : ℤ) * (X / |g|) + 2 ^ (-150 : ℤ))) +
      absSum wOut * (Y + filterError wIn wOut g X Y H) ≤ 2 ^ 120)
    (xs0 zs0 rest : List ℝ) (hT : xsT = xs0 ++ rest) (hlen : zs0.length = xs0.length)
    (hnear : NearResponse wIn wOut g (stepErr (wIn.length + wOut.length) (absSum wIn) (X / |g|) (absSum wOut)
      (Y + filterError wIn wOut g X Y H)) xsT zs0 xs0.length) :
    ∃ (zs : List ℝ) (f : DigitalFilter), (FilterAfter wIn wOut g xs0 zs0).processAll (rest.map fin) = .ok (zs.map fin, f) ∧
      zs.length = rest.length ∧ (∀ z ∈ zs, Rep z) ∧
      NearResponse wIn wOut g (stepErr (wIn.length + wOut.length) (absSum wIn) (X / |g|) (absSum wOut)
        (Y + filterError wIn wOut g X Y H)) xsT (zs0 ++ zs) xsT.length := by
  obtain ⟨hE0, hs0, hle⟩ := stepErr_le (k := wIn.length + wOut.length) (A := absSum wIn) (Q := X / |g|)
    (ρ := absSum wOut) (Y := Y) (H := H) (E := filterError wIn wOut g X Y H) hk (absSum_nonneg _) (by positivity)
    (absSum_nonneg _) hY0 hH0 hs (by unfold filterError; push_cast; ring)
  induction rest generalizing xs0 zs0 with
  | nil =>
    refine ⟨[], _, rfl, rfl, by simp, ?_⟩
    rw [List.append_nil] at hT ⊢
    rw [hT] at hnear ⊢
    exact hnear
  | cons x rest ih =>
    have hxT : ∀ n, n < xsT.length → |xsT.getD n 0| ≤ X := by
      intro n hn
      exact (hxs _ (getD_mem _ _ hn)).2
    have hxmem := hxs x (by rw [hT]; simp)
    have hz : ∀ n, n < zs0.length → |zs0.getD n 0| ≤ Y + filterError wIn wOut g X Y H := by
      intro n hn
      have h1 := near_bound wIn wOut g _ H h xsT ys zs0 xs0.length hs0 (by rw [hT]; simp) hresp hnear himp hH n (by omega)
      have h2 := le_of_err h1
      have hny : n < ys.length := by rw [hresp.1, hT]; simp; omega
      have h3 : |ys.getD n 0| ≤ Y := hY _ (getD_mem _ _ hny)
      linarith
    have hx0 : ∀ n, n < xs0.length → |xs0.getD n 0| ≤ X := by
      intro n hn
      have := hxT n (by rw [hT]; simp; omega)
      rw [hT] at this
      simpa [List.getD, List.getElem?_append_left hn] using this
    obtain ⟨z, e1, r1, b1⟩ := filter_step wIn wOut g hg xs0 zs0 x X (Y + filterError wIn wOut g X Y H) hlen hxmem.1 hx0
      hxmem.2 hz (by linarith) hk hQ hS
    have hn1 := near_snoc wIn wOut g _ xs0 zs0 rest x z hlen (by rw [← hT]; exact hnear) b1
    rw [← hT] at hn1
    obtain ⟨zs, f, e2, l2, r2, n2⟩ := ih (xs0 ++ [x]) (zs0 ++ [z]) (by simp [hT]) (by simp [hlen]) hn1
    refine ⟨z :: zs, f, ?_, by simp [l2], ?_, by simpa using n2⟩
    · rw [List.map_cons, DigitalFilter.processAll, e1, Res.bind_ok, e2, Res.bind_ok]
      rfl
    · intro y hy
      rcases List.mem_cons.1 hy with rfl | hy
      · exact r1
      · exact r2 y hy

theorem default_filterAfter (wIn wOut : List ℝ) (g : ℝ) :
    DigitalFilter.default.configure (wIn.map fin) (wOut.map fin) (fin g) = FilterAfter wIn wOut g [] [] := by
  simp [DigitalFilter.configure, DigitalFilter.default, FilterAfter, CircBuf.setCapacity, CircBuf.empty, lastN]

/-- A new filter whose impulse response is summable follows the exact response for ever: whatever finite inputs, no
output is infinite or NaN and none is farther from the exact output than `filterError`, which does not depend on how many
inputs there were. -/
theorem C94_response (wIn wOut : List ℝ) (g X Y H : ℝ) (h : ℤ → ℝ) (xs ys : List ℝ) (hg : g ≠ 0)
    (hxs : ∀ x ∈ xs, Rep x ∧ |x| ≤ X) (hresp : IsResponse wIn wOut g xs ys) (hY : ∀ y ∈ ys, |y| ≤ Y)
    (himp : IsImpulse wOut h) (hH : ∀ M : ℕ, ∑ m ∈ range M, |h m| ≤ H) (hX : 0 ≤ X) (hY0 : 0 ≤ Y)
    (hk : wIn.length + wOut.length ≤ 2 ^ 21)
    (hs : (wIn.length + wOut.length + 1) * 2 ^ (-22 : ℤ) * (H * absSum wOut) ≤ 1 / 2)
    (hA : absSum wIn ≤ 2 ^ 100) (hQ : X / |g| ≤ 2 ^ 100) (hAQ : absSum wIn * (X / |g|) + absSum wOut * Y ≤ 2 ^ 100) :
    ∃ (zs : List ℝ) (f : DigitalFilter), (DigitalFilter.default.configure (wIn.map fin) (wOut.map fin) (fin g)).processAll (xs.map fin) =
        .ok (zs.map fin, f) ∧ zs.length = xs.length ∧ (∀ z ∈ zs, Rep z) ∧
      ∀ n, n < xs.length → |zs.getD n 0 - ys.getD n 0| ≤ filterError wIn wOut g X Y H := by
  have hH0 : 0 ≤ H := by simpa using hH 0
  have hs' : ((wIn.length + wOut.length : ℕ) + 1 : ℝ) * 2 ^ (-22 : ℤ) * (H * absSum wOut) ≤ 1 / 2 := by
    push_cast
    exact hs
  have hA0 := absSum_nonneg wIn
  have hρ0 := absSum_nonneg wOut
  obtain ⟨hE0, hs0, hle⟩ := stepErr_le (k := wIn.length + wOut.length) (A := absSum wIn) (Q := X / |g|)
    (ρ := absSum wOut) (Y := Y) (H := H) (E := filterError wIn wOut g X Y H) hk hA0 (by positivity)
    hρ0 hY0 hH0 hs' (by unfold filterError; push_cast; ring)
  have hS : absSum wIn * (X / |g| + (2 ^ (-24 : ℤ) * (X / |g|) + 2 ^ (-150 : ℤ))) +
      absSum wOut * (Y + filterError wIn wOut g X Y H) ≤ 2 ^ 120 := by
    have hk' : (wIn.length : ℝ) + wOut.length ≤ 2097152 := by
      have : wIn.length + wOut.length ≤ 2097152 := by omega
      exact_mod_cast this
    have hk0 : (0 : ℝ) ≤ (wIn.length : ℝ) + wOut.length := by positivity
    have h22 : (2 : ℝ) ^ (-22 : ℤ) = 1 / 4194304 := by norm_num
    have he := eta_pos
    have he2 : (2 : ℝ) ^ (-150 : ℤ) * 2 ^ 102 ≤ 1 := by
      rw [← zpow_natCast (2 : ℝ) 102, ← zpow_add₀ (by norm_num)]
      exact zpow_le_one_of_nonpos₀ (by norm_num) (by norm_num)
    have hb1 : (2 : ℝ) ^ 102 = 4 * 2 ^ 100 := by norm_num
    have hb2 : (4 : ℝ) * 2 ^ 100 + 8388608 ≤ 2 ^ 120 := by norm_num
    have hb3 : (8388608 : ℝ) ≤ 2 ^ 100 := by norm_num
    have hHρ : H * absSum wOut ≤ 2097152 := by
      have h1 : 0 ≤ H * absSum wOut := by positivity
      rw [h22] at hs
      nlinarith
    have hHρ0 : 0 ≤ H * absSum wOut := by positivity
    have hAQ0 : 0 ≤ absSum wIn * (X / |g|) := by positivity
    have hρY0 : 0 ≤ absSum wOut * Y := by positivity
    have hρE : absSum wOut * filterError wIn wOut g X Y H ≤
        (absSum wIn * (X / |g|) + absSum wOut * Y) + 4194304 := by
      have e : absSum wOut * filterError wIn wOut g X Y H =
          2 * ((wIn.length + wOut.length + 1) * 2 ^ (-22 : ℤ) * (H * absSum wOut) *
            (absSum wIn * (X / |g|) + absSum wOut * Y)) +
          2 * (H * absSum wOut * ((4 * (wIn.length + wOut.length) + 2 * absSum wIn) * 2 ^ (-150 : ℤ))) := by
        unfold filterError
        ring
      rw [e]
      have t1 := mul_le_mul_of_nonneg_right hs (add_nonneg hAQ0 hρY0)
      have t2 : (4 * ((wIn.length : ℝ) + wOut.length) + 2 * absSum wIn) * 2 ^ (-150 : ℤ) ≤ 1 := by
        rw [mul_comm]
        refine le_trans (mul_le_mul_of_nonneg_left ?_ he.le) he2
        rw [hb1]
        clear he2 hb1 hb2 hAQ hQ
        generalize (2 : ℝ) ^ 100 = M at *
        linarith
      have t3 : 0 ≤ (4 * ((wIn.length : ℝ) + wOut.length) + 2 * absSum wIn) * 2 ^ (-150 : ℤ) := by positivity
      have t4 := mul_le_mul hHρ t2 t3 (by norm_num)
      refine (add_le_add (mul_le_mul_of_nonneg_left t1 (by norm_num))
        (mul_le_mul_of_nonneg_left t4 (by norm_num))).trans (le_of_eq ?_)
      ring
    have hAη : absSum wIn * 2 ^ (-150 : ℤ) ≤ 1 := by
      rw [mul_comm]
      refine le_trans (mul_le_mul_of_nonneg_left ?_ he.le) he2
      rw [hb1]
      linarith
    rw [two_neg24, mul_add, mul_add, mul_add]
    have e3 : absSum wIn * (1 / 16777216 * (X / |g|)) = 1 / 16777216 * (absSum wIn * (X / |g|)) := by ring
    rw [e3]
    clear e3 hA hQ he2 hb1 hs hs' hle hs0 h22 he
    generalize (2 : ℝ) ^ 100 = M at *
    generalize (2 : ℝ) ^ 120 = M' at *
    generalize absSum wIn * (X / |g|) = T at *
    generalize absSum wIn * (2 : ℝ) ^ (-150 : ℤ) = T' at *
    linarith
  obtain ⟨zs, f, e, l, r, n⟩ := filter_processAll wIn wOut g X Y H h xs ys hg hxs hX hY0 hresp hY himp hH hk hs'
    (hQ.trans (by norm_num)) hH0 hS [] [] xs rfl rfl (by intro n hn; simp at hn)
  rw [default_filterAfter]
  refine ⟨zs, f, e, l, r, ?_⟩
  intro m hm
  rw [List.nil_append] at n
  exact (near_bound wIn wOut g _ H h xs ys zs xs.length hs0 le_rfl hresp n himp hH m hm).trans hle


theorem response_le (wIn wOut : List ℝ) (g X Y : ℝ) (xs ys : List ℝ) (hxs : ∀ x ∈ xs, |x| ≤ X) (hXY : X ≤ Y)
    (hAY : absSum wIn * (X / |g|) + absSum wOut * Y ≤ Y) (hresp : IsResponse wIn wOut g xs ys) (n : ℕ)
    (hn : n < xs.length) : |ys.getD n 0| ≤ Y := by
  induction n using Nat.strong_induction_on with
  | _ n ih =>
    rw [hresp.2 n hn]
    split_ifs with hr
    · exact (hxs _ (getD_mem _ _ hn)).trans hXY
    · refine (abs_add_le _ _).trans (le_trans (add_le_add ?_ ?_) hAY)
      · refine (abs_sum_le_sum_abs _ _).trans ?_
        rw [absSum, sum_mul]
        apply sum_le_sum
        intro i hi
        have hi := mem_range.1 hi
        rw [abs_mul, mul_comm, abs_div]
        refine mul_le_mul_of_nonneg_left ?_ (abs_nonneg _)
        exact div_le_div_of_nonneg_right (hxs _ (getD_mem _ _ (by omega))) (abs_nonneg g)
      · refine (abs_sum_le_sum_abs _ _).trans ?_
        rw [absSum, sum_mul]
        apply sum_le_sum
        intro i hi
        have hi := mem_range.1 hi
        rw [abs_mul, mul_comm]
        exact mul_le_mul_of_nonneg_left (ih _ (by omega) (by omega)) (abs_nonneg _)

/-- If the magnitudes of the output weights sum to less than 1, the bound is explicit. Filters without feedback are the
case of sum 0. -/
theorem C94_contraction (wIn wOut : List ℝ) (g X Y : ℝ) (xs : List ℝ) (hg : g ≠ 0)
    (hxs : ∀ x ∈ xs, Rep x ∧ |x| ≤ X) (hX : 0 ≤ X) (hXY : X ≤ Y) (hρ : absSum wOut < 1)
    (hAY : absSum wIn * (X / |g|) ≤ (1 - absSum wOut) * Y)
    (hk : (wIn.length + wOut.length + 1) * 2 ^ (-21 : ℤ) ≤ 1 - absSum wOut)
    (hA : absSum wIn ≤ 2 ^ 100) (hQ : X / |g| ≤ 2 ^ 100) (hY : Y ≤ 2 ^ 100) :
    ∃ (ys zs : List ℝ) (f : DigitalFilter), IsResponse wIn wOut g xs ys ∧
      (DigitalFilter.default.configure (wIn.map fin) (wOut.map fin) (fin g)).processAll (xs.map fin) =
        .ok (zs.map fin, f) ∧ zs.length = xs.length ∧ (∀ z ∈ zs, Rep z) ∧
      ∀ n, n < xs.length → |zs.getD n 0 - ys.getD n 0| ≤
        ((wIn.length + wOut.length + 1) * 2 ^ (-21 : ℤ) * Y +
          (8 * (wIn.length + wOut.length) + 4 * absSum wIn) * 2 ^ (-150 : ℤ)) / (1 - absSum wOut) := by
  have hρ0 := absSum_nonneg wOut
  have hpos : 0 < 1 - absSum wOut := by linarith
  have hY0 : 0 ≤ Y := hX.trans hXY
  have hAY' : absSum wIn * (X / |g|) + absSum wOut * Y ≤ Y := by linarith
  have h21 : (2 : ℝ) ^ (-21 : ℤ) = 1 / 2097152 := by norm_num
  have h22 : (2 : ℝ) ^ (-22 : ℤ) = 1 / 4194304 := by norm_num
  obtain ⟨ys, f0, -, hresp⟩ := C40_response_partial wIn wOut g hg xs
  have hle := response_le wIn wOut g X Y xs ys (fun x hx => (hxs x hx).2) hXY hAY' hresp
  have hyY : ∀ y ∈ ys, |y| ≤ Y := by
    intro y hy
    obtain ⟨n, hn, rfl⟩ := List.getElem_of_mem hy
    have := hle n (by rw [← hresp.1]; exact hn)
    simpa [List.getD, List.getElem?_eq_getElem hn] using this
  have hk2 : wIn.length + wOut.length ≤ 2 ^ 21 := by
    have h1 : ((wIn.length : ℝ) + wOut.length + 1) ≤ 2097152 := by
      rw [h21] at hk
      linarith
    have h2 : ((wIn.length + wOut.length + 1 : ℕ) : ℝ) ≤ (2097152 : ℕ) := by push_cast; exact h1
    have := Nat.cast_le.1 h2
    omega
  obtain ⟨zs, f, e, l, r, b⟩ := C94_response wIn wOut g X Y (1 / (1 - absSum wOut)) (impulse wOut) xs ys hg hxs hresp hyY
    (impulse_isImpulse wOut) (impulse_sum wOut _ (impulse_isImpulse wOut) hρ) hX hY0 hk2
    (by
      have h1 : 1 / (1 - absSum wOut) * absSum wOut ≤ 1 / (1 - absSum wOut) :=
        mul_le_of_le_one_right (by positivity) hρ.le
      have h2 := mul_le_mul_of_nonneg_left h1
        (show (0 : ℝ) ≤ ((wIn.length : ℝ) + wOut.length + 1) * 2 ^ (-22 : ℤ) by positivity)
      refine h2.trans ?_
      rw [mul_one_div, div_le_iff₀ hpos, h22]
      rw [h21] at hk
      linarith)
    hA hQ (hAY'.trans hY)
  refine ⟨ys, zs, f, hresp, e, l, r, ?_⟩
  intro n hn
  refine (b n hn).trans ?_
  unfold filterError
  rw [le_div_iff₀ hpos]
  have e1 : 2 * (1 / (1 - absSum wOut)) * ((wIn.length + wOut.length + 1) * 2 ^ (-22 : ℤ) *
      (absSum wIn * (X / |g|) + absSum wOut * Y) + (4 * (wIn.length + wOut.length) + 2 * absSum wIn) * 2 ^ (-150 : ℤ)) *
      (1 - absSum wOut) = 2 * ((wIn.length + wOut.length + 1) * 2 ^ (-22 : ℤ) *
      (absSum wIn * (X / |g|) + absSum wOut * Y)) +
      (8 * (wIn.length + wOut.length) + 4 * absSum wIn) * 2 ^ (-150 : ℤ) := by
    field_simp
    ring
  rw [e1]
  refine add_le_add_left ?_ _
  have h1 := mul_le_mul_of_nonneg_left hAY'
        (show (0 : ℝ) ≤ ((wIn.length : ℝ) + wOut.length + 1) * 2 ^ (-22 : ℤ) by positivity)
  rw [h22] at h1 ⊢
  rw [h21]
  linarith


/-- A first order low-pass filter: `y = x / 2 + y / 2`. -/
example (xs : List ℝ) (hxs : ∀ x ∈ xs, Rep x ∧ |x| ≤ 1000) :
    ∃ (ys zs : List ℝ) (f : DigitalFilter), IsResponse [1 / 2] [1 / 2] 1 xs ys ∧
      (DigitalFilter.default.configure [fin (1 / 2)] [fin (1 / 2)] (fin 1)).processAll (xs.map fin) =
        .ok (zs.map fin, f) ∧ ∀ n, n < xs.length → |zs.getD n 0 - ys.getD n 0| ≤ 1 / 100 := by
  have e1 : absSum [1 / 2] = 1 / 2 := by
    norm_num [absSum, List.getD, abs_of_pos]
  obtain ⟨ys, zs, f, h1, h2, -, -, h3⟩ := C94_contraction [1 / 2] [1 / 2] 1 1000 1000 xs (by norm_num) hxs (by norm_num)
    le_rfl (by rw [e1]; norm_num) (by rw [e1]; norm_num) (by rw [e1]; norm_num) (by rw [e1]; norm_num) (by norm_num)
    (by norm_num)
  refine ⟨ys, zs, f, h1, h2, fun n hn => (h3 n hn).trans ?_⟩
  rw [e1]
  norm_num

/-- A filter whose weights sum to more than 1 in magnitude but whose impulse response is summable (a double pole
at 1/2): `y n = x n + y (n-1) - y (n-2) / 4`. -/
example (xs ys : List ℝ) (hxs : ∀ x ∈ xs, Rep x ∧ |x| ≤ 1) (hresp : IsResponse [1] [-1 / 4, 1] 1 xs ys)
    (hY : ∀ y ∈ ys, |y| ≤ 10) :
    ∃ (zs : List ℝ) (f : DigitalFilter),
      (DigitalFilter.default.configure [fin 1] [fin (-1 / 4), fin 1] (fin 1)).processAll (xs.map fin) =
        .ok (zs.map fin, f) ∧ ∀ n, n < xs.length → |zs.getD n 0 - ys.getD n 0| ≤ 1 / 1000 := by
  have e1 : absSum [1] = 1 := by norm_num [absSum, List.getD]
  have e2 : absSum [-1 / 4, 1] = 5 / 4 := by norm_num [absSum, List.getD, sum_range_succ, abs_of_neg]
  have himp : IsImpulse [-1 / 4, 1] (fun z => if z < 0 then 0 else (z + 1) * (1 / 2 : ℝ) ^ z) := by
    refine ⟨fun z hz => if_pos hz, ?_⟩
    intro z hz
    obtain ⟨n, rfl⟩ := Int.eq_ofNat_of_zero_le hz
    rcases n with _ | _ | n
    · simp [sum_range_succ, List.getD]
    · norm_num [sum_range_succ, List.getD]
    · have a1 : ¬ (((n + 1 + 1 : ℕ) : ℤ) < 0) := by omega
      have a2 : ((n + 1 + 1 : ℕ) : ℤ) - (2 : ℕ) + (0 : ℕ) = n := by push_cast; ring
      have a3 : ((n + 1 + 1 : ℕ) : ℤ) - (2 : ℕ) + (1 : ℕ) = (n + 1 : ℕ) := by push_cast; ring
      have a4 : ¬ ((n : ℤ) < 0) := by omega
      have a5 : ¬ (((n + 1 : ℕ) : ℤ) < 0) := by omega
      have a6 : ¬ (((n + 1 + 1 : ℕ) : ℤ) = 0) := by omega
      simp only [List.length_cons, List.length_nil, zero_add, sum_range_succ, range_zero, sum_empty,
        show (1 + 1 : ℕ) = 2 from rfl]
      rw [a2, a3, if_neg a1, if_neg a4, if_neg a5, if_neg a6, zpow_natCast, zpow_natCast, zpow_natCast, pow_succ, pow_succ]
      simp only [List.getD, List.getElem?_cons_zero, List.getElem?_cons_succ, Option.getD_some]
      push_cast
      ring
  have hsum : ∀ M : ℕ, ∑ m ∈ range M, |(fun z : ℤ => if z < 0 then 0 else (z + 1) * (1 / 2 : ℝ) ^ z) m| ≤ 4 := by
    intro M
    have key : ∑ m ∈ range M, |(fun z : ℤ => if z < 0 then 0 else (z + 1) * (1 / 2 : ℝ) ^ z) m| =
        4 - (2 * M + 4) * (1 / 2) ^ M := by
      induction M with
      | zero => norm_num
      | succ M ih =>
        rw [sum_range_succ, ih]
        have a4 : ¬ ((M : ℤ) < 0) := by omega
        simp only [if_neg a4]
        rw [zpow_natCast, abs_of_nonneg (by positivity), pow_succ]
        push_cast
        ring
    rw [key]
    have : (0 : ℝ) ≤ (2 * M + 4) * (1 / 2) ^ M := by positivity
    linarith
  obtain ⟨zs, f, h2, -, -, h3⟩ := C94_response [1] [-1 / 4, 1] 1 1 10 4 _ xs ys (by norm_num) hxs hresp hY himp hsum
    (by norm_num) (by norm_num) (by norm_num) (by rw [e2]; norm_num) (by rw [e1]; norm_num) (by norm_num)
    (by rw [e1, e2]; norm_num)
  refine ⟨zs, f, h2, fun n hn => (h3 n hn).trans ?_⟩
  unfold filterError
  rw [e1, e2]
  norm_num


/-! ### Infinities and NaN -/

/-- An infinity or NaN. Not in /repo: specification. -/
def NotFinite (a : F32) : Prop := ∀ x, a ≠ fin x

theorem mul_notFinite {a b : F32} (h : NotFinite a) : NotFinite (F32.mul a b) := by
  intro x
  rcases a with _ | _ | _ | a
  · simp [F32.mul]
  · cases b <;> simp only [F32.mul, infOf] <;> (try split_ifs) <;> simp
  · cases b <;> simp only [F32.mul, infOf] <;> (try split_ifs) <;> simp
  · exact absurd rfl (h a)

theorem add_notFinite_left {a b : F32} (h : NotFinite a) : NotFinite (add a b) := by
  intro x
  rcases a with _ | _ | _ | a
  · simp [add]
  · cases b <;> simp [add]
  · cases b <;> simp [add]
  · exact absurd rfl (h a)

theorem add_notFinite_right {a b : F32} (h : NotFinite b) : NotFinite (add a b) := by
  intro x
  rcases b with _ | _ | _ | b
  · cases a <;> simp [add]
  · cases a <;> simp [add]
  · cases a <;> simp [add]
  · exact absurd rfl (h b)

theorem accumulate_notFinite (buf w : List F32) (is : List ℕ) (acc : F32) (h1 : ∀ i ∈ is, i < buf.length)
    (h2 : ∀ i ∈ is, i < w.length) :
    ∃ v, DigitalFilter.accumulate buf w is acc = .ok v ∧
      ((NotFinite acc ∨ ∃ i ∈ is, NotFinite (buf.getD i nan)) → NotFinite v) := by
  induction is generalizing acc with
  | nil => exact ⟨acc, rfl, by simp⟩
  | cons i is ih =>
    have e1 : Res.read buf i = .ok (buf.getD i nan) := by
      unfold Res.read
      rw [List.getD, List.getElem?_eq_getElem (h1 i (by simp))]; rfl
    have e2 : Res.read w i = .ok (w.getD i nan) := by
      unfold Res.read
      rw [List.getD, List.getElem?_eq_getElem (h2 i (by simp))]; rfl
    obtain ⟨v, e, h⟩ := ih (add acc (F32.mul (buf.getD i nan) (w.getD i nan))) (fun j hj => h1 j (by simp [hj]))
      (fun j hj => h2 j (by simp [hj]))
    refine ⟨v, ?_, ?_⟩
    · rw [DigitalFilter.accumulate, e1, Res.bind_ok, e2, Res.bind_ok, e]
    · rintro (hacc | ⟨j, hj, hn⟩)
      · exact h (Or.inl (add_notFinite_left hacc))
      · rcases List.mem_cons.1 hj with rfl | hj
        · exact h (Or.inl (add_notFinite_right (mul_notFinite hn)))
        · exact h (Or.inr ⟨j, hj, hn⟩)

/-- State of a filter after inputs `xs` and outputs `ys`, of any kind. Helper of the proofs. Not in /repo:
specification. -/
noncomputable def FilterState (wIn wOut : List F32) (g : F32) (xs ys : List F32) : DigitalFilter :=
  ⟨⟨wIn.length, lastN wIn.length (xs.map fun x => div x g)⟩, ⟨wOut.length, lastN wOut.length ys⟩, g, wIn, wOut⟩

theorem default_filterState (wIn wOut : List F32) (g : F32) :
    DigitalFilter.default.configure wIn wOut g = FilterState wIn wOut g [] [] := by
  simp [DigitalFilter.configure, DigitalFilter.default, FilterState, CircBuf.setCapacity, CircBuf.empty, lastN]

/-- A step never reads outside the delay lines; if an output in use is not finite, neither is the new one. -/
theorem filterState_step (wIn wOut : List F32) (g : F32) (xs ys : List F32) (x : F32) (hlen : ys.length = xs.length) :
    ∃ y, (FilterState wIn wOut g xs ys).process x = .ok (y, FilterState wIn wOut g (xs ++ [x]) (ys ++ [y])) ∧
      (wIn.length ≤ xs.length + 1 → wOut.length ≤ xs.length →
        (∃ i, i < wOut.length ∧ NotFinite ((lastN wOut.length ys).getD i nan)) → NotFinite y) := by
  have hmap : (xs.map fun x => div x g) ++ [div x g] = (xs ++ [x]).map fun x => div x g := by simp
  have hfull : ((⟨wIn.length, lastN wIn.length ((xs ++ [x]).map fun x => div x g)⟩ : CircBuf F32).full ∧
      (⟨wOut.length, lastN wOut.length ys⟩ : CircBuf F32).full) ↔
      (wIn.length ≤ xs.length + 1 ∧ wOut.length ≤ xs.length) := by
    unfold CircBuf.full
    simp only [lastN_len]
    simp only [List.length_map, List.length_append, List.length_singleton, hlen]
  unfold DigitalFilter.process FilterState
  dsimp only
  rw [push_lastN, hmap]
  by_cases hc : wIn.length ≤ xs.length + 1 ∧ wOut.length ≤ xs.length
  · have hf := hfull.2 hc
    rw [if_pos hf]
    obtain ⟨a, e1, -⟩ := accumulate_notFinite (lastN wIn.length ((xs ++ [x]).map fun x => div x g)) wIn
      (List.range wIn.length) (fin 0) (by intro i hi; rw [hf.1]; exact List.mem_range.1 hi)
      (by intro i hi; exact List.mem_range.1 hi)
    obtain ⟨b, e2, h2⟩ := accumulate_notFinite (lastN wOut.length ys) wOut
      (List.range wOut.length) a (by intro i hi; rw [hf.2]; exact List.mem_range.1 hi)
      (by intro i hi; exact List.mem_range.1 hi)
    rw [e1, Res.bind_ok, e2, Res.bind_ok, push_lastN]
    refine ⟨b, rfl, fun _ _ h => h2 (Or.inr ?_)⟩
    obtain ⟨i, hi, hn⟩ := h
    exact ⟨i, List.mem_range.2 hi, hn⟩
  · rw [if_neg (by rw [hfull]; exact hc), Res.bind_ok, push_lastN]
    exact ⟨x, rfl, fun h1 h2 => absurd ⟨h1, h2⟩ hc⟩

theorem filterState_run (wIn wOut : List F32) (g : F32) (xs0 ys0 xs : List F32) (hlen : ys0.length = xs0.length) :
    ∃ ys, (FilterState wIn wOut g xs0 ys0).processAll xs = .ok (ys, FilterState wIn wOut g (xs0 ++ xs) (ys0 ++ ys)) ∧
      ys.length = xs.length := by
  induction xs generalizing xs0 ys0 with
  | nil => exact ⟨[], by simp [DigitalFilter.processAll], rfl⟩
  | cons x xs ih =>
    obtain ⟨y, e1, -⟩ := filterState_step wIn wOut g xs0 ys0 x hlen
    obtain ⟨ys, e2, l2⟩ := ih (xs0 ++ [x]) (ys0 ++ [y]) (by simp [hlen])
    refine ⟨y :: ys, ?_, by simp [l2]⟩
    rw [DigitalFilter.processAll, e1, Res.bind_ok, e2, Res.bind_ok]
    simp

/-- Whatever the weights, the gain and the inputs (NaN, infinities, zero gain), a configured filter never reads outside
its delay lines and gives one output for each input. -/
theorem C94_defined (wIn wOut : List F32) (g : F32) (xs : List F32) :
    ∃ ys f, (DigitalFilter.default.configure wIn wOut g).processAll xs = .ok (ys, f) ∧ ys.length = xs.length := by
  obtain ⟨ys, e, l⟩ := filterState_run wIn wOut g [] [] xs rfl
  rw [default_filterState]
  exact ⟨ys, _, e, l⟩

theorem filterState_poison (wIn wOut : List F32) (g : F32) (hw : wOut ≠ []) (xs0 ys0 xs : List F32) (y0 : F32)
    (hlen : (ys0 ++ [y0]).length = xs0.length) (h1 : wIn.length ≤ xs0.length + 1) (h2 : wOut.length ≤ xs0.length)
    (hy : NotFinite y0) :
    ∃ ys f, (FilterState wIn wOut g xs0 (ys0 ++ [y0])).processAll xs = .ok (ys, f) ∧ ys.length = xs.length ∧
      ∀ y ∈ ys, NotFinite y := by
  induction xs generalizing xs0 ys0 y0 with
  | nil => exact ⟨[], _, rfl, rfl, by simp⟩
  | cons x xs ih =>
    obtain ⟨y, e1, n1⟩ := filterState_step wIn wOut g xs0 (ys0 ++ [y0]) x hlen
    have hpos : 0 < wOut.length := List.length_pos_iff.2 hw
    have hn : NotFinite y := by
      refine n1 h1 h2 ⟨wOut.length - 1, by omega, ?_⟩
      have : (lastN wOut.length (ys0 ++ [y0])).getD (wOut.length - 1) nan = y0 := by
        unfold lastN
        simp only [List.getD, List.getElem?_drop]
        rw [show (ys0 ++ [y0]).length - wOut.length + (wOut.length - 1) = ys0.length by
          simp only [List.length_append, List.length_singleton] at hlen ⊢; omega]
        simp
      rw [this]
      exact hy
    obtain ⟨ys, f, e2, l2, n2⟩ := ih (xs0 ++ [x]) (ys0 ++ [y0]) y (by simp at hlen ⊢; omega) (by simp; omega)
      (by simp; omega) hn
    refine ⟨y :: ys, f, ?_, by simp [l2], ?_⟩
    · rw [DigitalFilter.processAll, e1, Res.bind_ok, e2, Res.bind_ok]
    · intro z hz
      rcases List.mem_cons.1 hz with rfl | hz
      · exact hn
      · exact n2 z hz

/-- Once a filter with feedback has given an output that is not finite, it never gives a finite one again, whatever the
inputs, until it is reset. The delay lines must be full at the next input. -/
theorem C94_poison (wIn wOut : List F32) (g : F32) (hw : wOut ≠ []) (xs ys xs' : List F32) (y : F32) (f : DigitalFilter)
    (h : (DigitalFilter.default.configure wIn wOut g).processAll xs = .ok (ys ++ [y], f))
    (h1 : wIn.length ≤ xs.length + 1) (h2 : wOut.length ≤ xs.length) (hy : NotFinite y) :
    ∃ ys' f', f.processAll xs' = .ok (ys', f') ∧ ys'.length = xs'.length ∧ ∀ z ∈ ys', NotFinite z := by
  obtain ⟨zs, e, l⟩ := filterState_run wIn wOut g [] [] xs rfl
  rw [default_filterState, e] at h
  have h := Res.ok.inj h
  have e1 : zs = ys ++ [y] := congrArg Prod.fst h
  have e2 : FilterState wIn wOut g ([] ++ xs) ([] ++ zs) = f := congrArg Prod.snd h
  rw [← e2, List.nil_append, List.nil_append, e1]
  exact filterState_poison wIn wOut g hw xs ys xs' y (by rw [← e1, l]) h1 h2 hy

/-- A reset removes it: a filter behaves as a new one after `resetFilter`. -/
theorem C94_reset (wIn wOut : List F32) (g : F32) (xs ys : List F32) (f : DigitalFilter)
    (h : (DigitalFilter.default.configure wIn wOut g).processAll xs = .ok (ys, f)) :
    f.reset = DigitalFilter.default.configure wIn wOut g := by
  obtain ⟨zs, e, l⟩ := filterState_run wIn wOut g [] [] xs rfl
  rw [default_filterState, e] at h
  have h := Res.ok.inj h
  have e2 : FilterState wIn wOut g ([] ++ xs) ([] ++ zs) = f := congrArg Prod.snd h
  rw [← e2, default_filterState]
  simp [DigitalFilter.reset, FilterState, CircBuf.clear, lastN]

/-- A filter without feedback forgets: its outputs depend on the last inputs only, one for each weight, so one that is not
finite does no harm for longer than that. -/
theorem C94_forgets (wIn : List F32) (g : F32) (xs xs' zs : List F32) (x : F32) (hz : zs.length + 1 = wIn.length)
    (ys ys' : List F32) (f f' : DigitalFilter)
    (h : (DigitalFilter.default.configure wIn [] g).processAll (xs ++ zs) = .ok (ys, f))
    (h' : (DigitalFilter.default.configure wIn [] g).processAll (xs' ++ zs) = .ok (ys', f')) :
    ∃ y e e', f.process x = .ok (y, e) ∧ f'.process x = .ok (y, e') := by
  have key : ∀ (us us' : List F32) (f : DigitalFilter),
      (DigitalFilter.default.configure wIn [] g).processAll (us ++ zs) = .ok (us', f) →
      f.process x = (DigitalFilter.accumulate (((zs ++ [x]).map fun x => div x g)) wIn (List.range wIn.length)
        (fin 0)).bind fun out => .ok (out, ⟨⟨wIn.length, ((zs ++ [x]).map fun x => div x g)⟩, ⟨0, []⟩, g, wIn, []⟩) := by
    intro us us' f hf
    obtain ⟨vs, e, l⟩ := filterState_run wIn [] g [] [] (us ++ zs) rfl
    rw [default_filterState, e] at hf
    have e2 := congrArg Prod.snd (Res.ok.inj hf)
    simp only [List.nil_append] at e2
    have hst : f = ⟨⟨wIn.length, lastN wIn.length ((us ++ zs).map fun x => div x g)⟩, ⟨0, []⟩, g, wIn, []⟩ := by
      rw [← e2]
      simp [FilterState, lastN]
    have hpush : (⟨wIn.length, lastN wIn.length ((us ++ zs).map fun x => div x g)⟩ : CircBuf F32).push (div x g) =
        ⟨wIn.length, (zs ++ [x]).map fun x => div x g⟩ := by
      rw [push_lastN]
      congr 1
      have e3 : (us ++ zs).map (fun x => div x g) ++ [div x g] =
          us.map (fun x => div x g) ++ (zs ++ [x]).map fun x => div x g := by simp
      rw [e3]
      unfold lastN
      rw [← hz]
      simp
    rw [hst, DigitalFilter.process]
    dsimp only
    rw [hpush, if_pos ⟨by simp [CircBuf.full, hz], rfl⟩]
    cases DigitalFilter.accumulate ((zs ++ [x]).map fun x => div x g) wIn (List.range wIn.length) (fin 0) <;> rfl
  have k1 := key xs ys f h
  have k2 := key xs' ys' f' h'
  obtain ⟨v, e, -⟩ := accumulate_notFinite ((zs ++ [x]).map fun x => div x g) wIn (List.range wIn.length) (fin 0)
    (by intro i hi; have := List.mem_range.1 hi; simp; omega) (by intro i hi; exact List.mem_range.1 hi)
  rw [e, Res.bind_ok] at k1 k2
  exact ⟨v, _, _, k1, k2⟩


/-- One NaN as input of `y = x + y`. -/
example (xs' : List F32) : ∃ f ys' f', (DigitalFilter.default.configure [fin 1] [fin 1] (fin 1)).processAll [nan] =
    .ok ([nan], f) ∧ f.processAll xs' = .ok (ys', f') ∧ ∀ z ∈ ys', NotFinite z := by
  have h : (DigitalFilter.default.configure [fin 1] [fin 1] (fin 1)).processAll [nan] =
      .ok ([] ++ [nan], FilterState [fin 1] [fin 1] (fin 1) [nan] [nan]) := by
    simp [DigitalFilter.configure, DigitalFilter.default, DigitalFilter.processAll, DigitalFilter.process, CircBuf.empty,
      CircBuf.setCapacity, CircBuf.push, CircBuf.full, FilterState, lastN, Res.bind]
  obtain ⟨ys', f', e, -, n⟩ := C94_poison [fin 1] [fin 1] (fin 1) (by simp) [nan] [] xs' nan _ h (by simp) (by simp)
    (by intro x; simp)
  exact ⟨_, ys', f', h, e, n⟩

/-- A NaN two inputs ago does not reach the output of `y n = x n + x (n-1)`. -/
example : ∃ f f' y e e', (∃ ys, (DigitalFilter.default.configure [fin 1, fin 1] [] (fin 1)).processAll ([nan] ++ [fin 2]) =
      .ok (ys, f)) ∧
    (∃ ys, (DigitalFilter.default.configure [fin 1, fin 1] [] (fin 1)).processAll ([] ++ [fin 2]) = .ok (ys, f')) ∧
    f.process (fin 3) = .ok (y, e) ∧ f'.process (fin 3) = .ok (y, e') := by
  obtain ⟨ys, f, h, -⟩ := C94_defined [fin 1, fin 1] [] (fin 1) ([nan] ++ [fin 2])
  obtain ⟨ys', f', h', -⟩ := C94_defined [fin 1, fin 1] [] (fin 1) ([] ++ [fin 2])
  obtain ⟨y, e, e', k, k'⟩ := C94_forgets [fin 1, fin 1] (fin 1) [nan] [] [fin 2] (fin 3) rfl ys ys' f f' h h'
  exact ⟨f, f', y, e, e', ⟨ys, h⟩, ⟨ys', h'⟩, k, k'⟩

/-! ### A filter that is not stable -/

theorem rnd_two24 : rnd (1 + 16777216) = 16777216 := by
  have hl : lastBit (1 + 16777216) = 1 := by
    have : Int.log 2 |(1 + 16777216 : ℝ)| = 24 := by
      rw [abs_of_pos (by norm_num), show (1 + 16777216 : ℝ) = ((16777217 : ℕ) : ℝ) by norm_num, Int.log_natCast,
        (Nat.log_eq_iff (m := 24) (by norm_num)).2 (by norm_num)]
      norm_num
    rw [lastBit, this]
    norm_num
  rw [rnd, hl]
  have e : (1 + 16777216 : ℝ) / 2 ^ (1 : ℤ) = ((8388608 : ℤ) : ℝ) + 1 / 2 := by norm_num
  rw [e]
  have hf : ⌊((8388608 : ℤ) : ℝ) + 1 / 2⌋ = 8388608 := by
    rw [Int.floor_eq_iff]
    norm_num
  have hfr : Int.fract (((8388608 : ℤ) : ℝ) + 1 / 2) = 1 / 2 := by
    rw [Int.fract, hf]
    norm_num
  rw [nearestInt, hfr, hf]
  norm_num
  decide

theorem rep_nat {n : ℕ} (h : n ≤ 16777216) : Rep n := by
  rcases Nat.lt_or_ge n 16777216 with h1 | h1
  · exact ⟨n, 0, by simp only [Nat.abs_cast]; norm_num; exact_mod_cast h1, by norm_num, by norm_num, by simp⟩
  · have : n = 16777216 := by omega
    subst this
    exact ⟨1, 24, by norm_num, by norm_num, by norm_num, by norm_num⟩

theorem rnd_count (n : ℕ) : rnd (1 + (min (n + 1) 16777216 : ℕ)) = (min (n + 2) 16777216 : ℕ) := by
  rcases Nat.lt_or_ge (n + 1) 16777216 with h | h
  · rw [min_eq_left (by omega), min_eq_left (by omega)]
    have : (1 + ((n + 1 : ℕ) : ℝ)) = ((n + 2 : ℕ) : ℝ) := by push_cast; ring
    rw [this]
    exact rnd_of_grid (rep_nat (by omega)).grid
  · rw [min_eq_right (by omega), min_eq_right (by omega)]
    exact_mod_cast rnd_two24

theorem count_run (n m : ℕ) (xs : List F32) (f : DigitalFilter)
    (hf : f = ⟨⟨1, [fin 1]⟩, ⟨1, [fin (min (m + 1) 16777216 : ℕ)]⟩, fin 1, [fin 1], [fin 1]⟩)
    (hx : xs = List.replicate n (fin 1)) :
    ∃ f', f.processAll xs = .ok ((List.range n).map fun k => fin (min (m + k + 2) 16777216 : ℕ), f') := by
  induction n generalizing m xs f with
  | zero => subst hx; exact ⟨_, rfl⟩
  | succ n ih =>
    subst hx hf
    have hb : ∀ k : ℕ, ((min k 16777216 : ℕ) : ℝ) ≤ 16777216 := by
      intro k
      have : min k 16777216 ≤ 16777216 := min_le_right _ _
      exact_mod_cast this
    have hb0 : (0 : ℝ) ≤ ((min (m + 1) 16777216 : ℕ) : ℝ) := Nat.cast_nonneg _
    have e1 : div (fin 1) (fin 1) = fin 1 := by
      rw [div, if_neg one_ne_zero, div_one, round_fin (by norm_num), rnd_of_grid Rep.one.grid]
    have e2 : F32.mul (fin 1) (fin 1) = fin 1 := by
      rw [mul_fin (by norm_num), mul_one, rnd_of_grid Rep.one.grid]
    have e3 : add (fin 0) (fin 1) = fin 1 := by
      rw [add_fin (by norm_num), zero_add, rnd_of_grid Rep.one.grid]
    have hbig : (16777217 : ℝ) ≤ 2 ^ 127 := by norm_num
    have e4 : F32.mul (fin (min (m + 1) 16777216 : ℕ)) (fin 1) = fin (min (m + 1) 16777216 : ℕ) := by
      rw [mul_fin (by rw [mul_one, abs_of_nonneg hb0]; linarith [hb (m + 1)]), mul_one,
        rnd_of_grid (rep_nat (min_le_right _ _)).grid]
    have e5 : add (fin 1) (fin (min (m + 1) 16777216 : ℕ)) = fin (min (m + 2) 16777216 : ℕ) := by
      rw [add_fin (by rw [abs_of_nonneg (by linarith)]; linarith [hb (m + 1)]), rnd_count]
    have hp : (⟨⟨1, [fin 1]⟩, ⟨1, [fin (min (m + 1) 16777216 : ℕ)]⟩, fin 1, [fin 1], [fin 1]⟩ : DigitalFilter).process
        (fin 1) = .ok (fin (min (m + 2) 16777216 : ℕ),
          ⟨⟨1, [fin 1]⟩, ⟨1, [fin (min (m + 2) 16777216 : ℕ)]⟩, fin 1, [fin 1], [fin 1]⟩) := by
      simp only [DigitalFilter.process, CircBuf.push, CircBuf.full, e1, List.length_singleton, List.tail_cons,
        List.nil_append, if_true, one_ne_zero, if_false, and_self, List.range_one, DigitalFilter.accumulate, Res.read,
        List.getElem?_cons_zero, Res.bind, e2, e3, e4, e5]
    obtain ⟨f', e⟩ := ih (m + 1) _ _ rfl rfl
    refine ⟨f', ?_⟩
    rw [List.replicate_succ, DigitalFilter.processAll, hp, Res.bind_ok, e, Res.bind_ok, List.range_succ_eq_map,
      List.map_cons, List.map_map]
    simp only [add_zero]
    congr 3
    apply List.map_congr_left
    intro k _
    simp only [Function.comp]
    congr 3
    omega

/-- The sum over all inputs, `y = x + y`, is not stable: fed with ones it counts them up to 2^24 and then stays there for
ever, while the exact response grows without bound. So the hypothesis on the impulse response in `C94_response` is
needed. -/
theorem C94_not_stable (n : ℕ) : ∃ f,
    (DigitalFilter.default.configure [fin 1] [fin 1] (fin 1)).processAll (List.replicate (n + 1) (fin 1)) =
      .ok ((List.range (n + 1)).map fun k => fin (min (k + 1) 16777216 : ℕ), f) ∧
    IsResponse [1] [1] 1 (List.replicate (n + 1) 1) ((List.range (n + 1)).map fun k => ((k + 1 : ℕ) : ℝ)) := by
  have e1 : div (fin 1) (fin 1) = fin 1 := by
    rw [div, if_neg one_ne_zero, div_one, round_fin (by norm_num), rnd_of_grid Rep.one.grid]
  obtain ⟨f, e⟩ := count_run n 0 _ _ rfl rfl
  refine ⟨f, ?_, by simp, ?_⟩
  · have hp : (DigitalFilter.default.configure [fin 1] [fin 1] (fin 1)).process (fin 1) = .ok (fin 1,
        ⟨⟨1, [fin 1]⟩, ⟨1, [fin (min (0 + 1) 16777216 : ℕ)]⟩, fin 1, [fin 1], [fin 1]⟩) := by
      simp [DigitalFilter.configure, DigitalFilter.default, DigitalFilter.process, CircBuf.empty,
        CircBuf.setCapacity, CircBuf.push, CircBuf.full, Res.bind, e1]
    rw [List.replicate_succ, DigitalFilter.processAll, hp, Res.bind_ok, e, Res.bind_ok, List.range_succ_eq_map,
      List.map_cons, List.map_map]
    congr 3
    · simp
    · apply List.map_congr_left
      intro k _
      simp only [Function.comp]
      congr 3
      omega
  · intro k hk
    simp only [List.length_replicate] at hk
    have g1 : ∀ j, j < n + 1 → ((List.range (n + 1)).map fun k => ((k + 1 : ℕ) : ℝ)).getD j 0 = ((j + 1 : ℕ) : ℝ) := by
      intro j hj
      rw [getD_map_zero _ _ 0 _ (by simpa using hj)]
      simp [List.getD, hj]
    have g2 : ∀ j, j < n + 1 → (List.replicate (n + 1) (1 : ℝ)).getD j 0 = 1 := by
      intro j hj
      simp [List.getD, List.getElem?_replicate, hj]
    rw [g1 k hk, g2 k hk]
    rcases k with _ | k
    · simp
    · rw [if_neg (by simp)]
      simp only [List.length_singleton, range_one, sum_singleton, add_zero, Nat.add_sub_cancel]
      rw [g1 k (by omega), g2 (k + 1) hk]
      simp [List.getD]
      ring

end F32

end AlMath
