import Verif.Model.FloatPlane
import Verif.Props.C82
import Verif.Props.C89
import Verif.Props.C113

/-!
C114: products, norms, distances and normalisation in the plane in single precision.
-/

namespace AlMath.F32

/-- The Euclidean norm in the plane. Not in /repo: specification. -/
noncomputable def len2 (x y : ℝ) : ℝ := Real.sqrt (x ^ 2 + y ^ 2)

theorem len2_eq (x y : ℝ) : len x y 0 = len2 x y := by
  rw [len, len2]
  norm_num

theorem add_zero_valid {a : F32} (h : Valid a) : add a (fin 0) = a := by
  cases a with
  | fin v => rw [add, add_zero, round_rep h]
  | _ => rfl

theorem add_valid' {x y : ℝ} : Valid (add (mul (fin x) (fin x)) (mul (fin y) (fin y))) := by
  rcases infOrNonneg_round (mul_self_nonneg x) with h | ⟨v, h, hv⟩ <;>
    rcases infOrNonneg_round (mul_self_nonneg y) with k | ⟨w, k, hw⟩ <;> rw [mul, mul, h, k]
  · trivial
  · trivial
  · trivial
  · exact round_valid _

/-- The norm in the plane is the one in space of the same vector with 0 as third component. -/
theorem plane_norm (x y : ℝ) : sqrt (add (mul (fin x) (fin x)) (mul (fin y) (fin y))) =
    Position3D.norm ⟨fin x, fin y, fin 0⟩ := by
  rw [Position3D.norm, dot]
  dsimp only
  rw [show mul (fin 0) (fin 0) = fin 0 by rw [mul, mul_zero, round_rep Rep.zero], add_zero_valid add_valid']

/-- The norms of a position and of a pose that are neither tiny nor huge are accurate. -/
theorem C114_norm (x y : ℝ) (t : F32) (hl : 2 ^ (-60 : ℤ) ≤ len2 x y) (hu : len2 x y ≤ 2 ^ 62) :
    ∃ n, Position2D.norm ⟨fin x, fin y⟩ = fin n ∧ Pose2D.norm ⟨fin x, fin y, t⟩ = fin n ∧ Rep n ∧
      |n - len2 x y| ≤ 2 ^ (-20 : ℤ) * len2 x y := by
  rw [← len2_eq] at *
  obtain ⟨n, h1, h2, h3⟩ := C77_norm x y 0 hl hu
  rw [← plane_norm] at h1
  exact ⟨n, h1, h1, h2, h3⟩

/-- Normalising a position that is neither tiny nor huge gives the unit vector of the same direction. -/
theorem C114_normalize (x y : ℝ) (hl : 2 ^ (-60 : ℤ) ≤ len2 x y) (hu : len2 x y ≤ 2 ^ 62) :
    ∃ p q, Position2D.normalize ⟨fin x, fin y⟩ = .ok ⟨fin p, fin q⟩ ∧
      UnitComp (len2 x y) x p ∧ UnitComp (len2 x y) y q := by
  obtain ⟨n, hn, -, -, he⟩ := C114_norm x y nan hl hu
  have hx := (abs_le_len x y 0).1
  have hy := (abs_le_len x y 0).2.1
  rw [len2_eq] at hx hy
  obtain ⟨i, p, x1, x2, x3, x4, x5⟩ := scale_err hl hu hx he
  obtain ⟨_, q, -, y2, rfl, y4, y5⟩ := scale_err hl hu hy he
  subst x3
  have hn0 : ¬ eq (fin n) (fin 0) := by
    have hNp : 0 < len2 x y := lt_of_lt_of_le (two_zpow_pos _) hl
    have := (abs_le.1 he).1
    intro hc
    have hc : n = 0 := hc
    rw [hc] at this
    norm_num at this
    linarith
  refine ⟨p, q, ?_, ⟨x4, x5⟩, ⟨y4, y5⟩⟩
  rw [Position2D.normalize, hn, if_neg hn0, Position2D.div, if_neg hn0, Position2D.smul]
  dsimp only
  rw [x1, x2, y2]

/-- A tiny position is refused even if it is not 0, a huge one is normalised to 0. -/
theorem C114_range (x y : ℝ) :
    (|x| ≤ 2 ^ (-75 : ℤ) → |y| ≤ 2 ^ (-75 : ℤ) → Position2D.normalize ⟨fin x, fin y⟩ = .throws) ∧
    (2 ^ 64 ≤ |x| ∨ 2 ^ 64 ≤ |y| → Position2D.normalize ⟨fin x, fin y⟩ = .ok ⟨fin 0, fin 0⟩) := by
  have e : Position2D.norm ⟨fin x, fin y⟩ = Position3D.norm ⟨fin x, fin y, fin 0⟩ := plane_norm x y
  constructor
  · intro hx hy
    have h := (C77_underflow x y 0 hx hy (by rw [abs_zero]; exact (two_zpow_pos _).le)).1
    rw [Position2D.normalize, e, h, if_pos (show eq (fin 0) (fin 0) from rfl)]
  · intro h
    have h := (C77_overflow x y 0 (by tauto)).1
    have hne : ¬ eq pinf (fin 0) := fun h => h
    rw [Position2D.normalize, e, h, if_neg hne, Position2D.div, if_neg hne, Position2D.smul]
    simp only [div, mul, mul_zero, round_rep Rep.zero]

/-- The dot and cross products: the errors are relative to the sums of the magnitudes of the terms. -/
theorem C114_products (a b x y : ℝ) :
    (|a| * |x| + |b| * |y| ≤ 2 ^ 125 → ∃ d, Position2D.dotProduct ⟨fin a, fin b⟩ ⟨fin x, fin y⟩ = fin d ∧ Rep d ∧
      |d - (a * x + b * y)| ≤ 2 ^ (-22 : ℤ) * (|a| * |x| + |b| * |y|) + 2 ^ (-148 : ℤ)) ∧
    (|a| * |y| + |b| * |x| ≤ 2 ^ 125 → ∃ d, Position2D.crossProduct ⟨fin a, fin b⟩ ⟨fin x, fin y⟩ = fin d ∧ Rep d ∧
      |d - (a * y - b * x)| ≤ 2 ^ (-22 : ℤ) * (|a| * |y| + |b| * |x|) + 2 ^ (-148 : ℤ)) := by
  refine ⟨fun h => ?_, fun h => det2_fin h⟩
  obtain ⟨d, h1, h2, h3⟩ := det2_fin (a := a) (b := b) (x := -y) (y := x) (by rwa [abs_neg])
  refine ⟨d, ?_, h2, ?_⟩
  · rw [← h1, Position2D.dotProduct, sub]
    dsimp only
    rw [show mul (fin b) (fin (-y)) = neg (mul (fin b) (fin y)) by rw [mul, mul, mul_neg, rnd_round_neg]]
    cases mul (fin b) (fin y) <;> simp [neg]
  · rwa [abs_neg, mul_neg, sub_neg_eq_add] at h3

/-- The distances of two positions and of two poses are accurate and do not depend on the angles. -/
theorem C114_distance (x y x' y' : ℝ) (t t' : F32) (hx : Rep x) (hy : Rep y) (hx' : Rep x') (hy' : Rep y')
    (hl : 2 ^ (-59 : ℤ) ≤ len2 (x - x') (y - y')) (hu : len2 (x - x') (y - y') ≤ 2 ^ 61) :
    ∃ d, Position2D.distance ⟨fin x, fin y⟩ ⟨fin x', fin y'⟩ = fin d ∧
      Pose2D.distance ⟨fin x, fin y, t⟩ ⟨fin x', fin y', t'⟩ = fin d ∧ Rep d ∧
      |d - len2 (x - x') (y - y')| ≤ 2 ^ (-19 : ℤ) * len2 (x - x') (y - y') := by
  have e : len (x - x') (y - y') (0 - 0) = len2 (x - x') (y - y') := by rw [sub_zero, len2_eq]
  obtain ⟨d, h1, h2, h3⟩ := C113_distance x y 0 x' y' 0 nan nan nan nan nan nan hx hy Rep.zero hx' hy' Rep.zero
    (by rwa [e]) (by rwa [e])
  rw [e] at h3
  have hb := abs_le_len (x - x') (y - y') 0
  rw [len2_eq] at hb
  have s1 : sub (fin x) (fin x') = fin (rnd (x - x')) := sub_fin (hb.1.trans (hu.trans (by norm_num)))
  have s2 : sub (fin y) (fin y') = fin (rnd (y - y')) := sub_fin (hb.2.1.trans (hu.trans (by norm_num)))
  have s3 : sub (fin 0) (fin 0) = fin 0 := by rw [sub, neg, add, add_neg_cancel, round_rep Rep.zero]
  rw [Position6D.distance, Position6D.distanceSquared] at h1
  dsimp only at h1
  rw [s1, s2, s3] at h1
  have h4 : sqrt (add (mul (fin (rnd (x - x'))) (fin (rnd (x - x')))) (mul (fin (rnd (y - y'))) (fin (rnd (y - y'))))) = fin d := by
    rw [plane_norm]
    exact h1
  refine ⟨d, ?_, ?_, h2, h3⟩
  · rw [Position2D.distance, Position2D.distanceSquared]
    dsimp only
    rw [s1, s2, h4]
  · rw [Pose2D.distance, Pose2D.distanceSquared]
    dsimp only
    rw [s1, s2, h4]

/-- The threshold of `Pose2D::normalize`. -/
theorem pose_threshold : ∃ s, round (1 / 10000) = fin s ∧ |s - 1 / 10000| ≤ 1 / 16777216 * (1 / 10000) := by
  refine ⟨rnd (1 / 10000), round_fin (by norm_num), ?_⟩
  have := rnd_rel (x := 1 / 10000) (by norm_num)
  rwa [two_neg24, abs_of_pos (by norm_num : (0 : ℝ) < 1 / 10000)] at this

/-- One component of a pose divided by a norm. -/
theorem pose_quot {x n N : ℝ} (hl : 1 / 10000 ≤ N) (hx : |x| ≤ N) (hn : |n - N| ≤ 2 ^ (-20 : ℤ) * N) :
    ∃ q, div (fin x) (fin n) = fin q ∧ UnitComp N x q := by
  have hNp : 0 < N := lt_of_lt_of_le (by norm_num) hl
  rw [show (2 : ℝ) ^ (-20 : ℤ) = 1 / 1048576 by norm_num] at hn
  obtain ⟨n1, n2⟩ := abs_le.1 hn
  have hnp : 0 < n := by linarith
  have hxN0 : 0 ≤ |x| / N := by positivity
  have hxN1 : |x| / N ≤ 1 := by rwa [div_le_one hNp]
  have hd : |x / n - x / N| ≤ (1 / 1048576 + 1 / 1073741824) * (|x| / N) := by
    have : x / n - x / N = (N - n) / n * (x / N) := by field_simp
    rw [this, abs_mul, abs_div x N, abs_of_pos hNp]
    refine mul_le_mul_of_nonneg_right ?_ hxN0
    rw [abs_div, abs_of_pos hnp, div_le_iff₀ hnp, abs_sub_comm]
    linarith
  have hm := le_of_err hd
  rw [abs_div x N, abs_of_pos hNp] at hm
  have hmu : |x / n| ≤ 2 ^ 127 := by
    have : (4 : ℝ) ≤ 2 ^ 127 := by norm_num
    generalize (2 : ℝ) ^ 127 = M at *
    linarith
  have hg := rnd_gen (x / n)
  rw [two_neg24] at hg
  refine ⟨rnd (x / n), by rw [div, if_neg hnp.ne', round_fin hmu], rnd_rep hmu, ?_⟩
  have q := abs_add_le (rnd (x / n) - x / n) (x / n - x / N)
  rw [sub_add_sub_cancel] at q
  rw [show (2 : ℝ) ^ (-19 : ℤ) = 1 / 524288 by norm_num]
  linarith

/-- A pose is normalised if its norm is at least 1.0001e-4, keeping its angle, and refused if its norm is at most
0.9999e-4. -/
theorem C114_pose_normalize (x y : ℝ) (t : F32) :
    (10001 / 100000000 ≤ len2 x y → len2 x y ≤ 2 ^ 62 → ∃ p q, Pose2D.normalize ⟨fin x, fin y, t⟩ = .ok ⟨fin p, fin q, t⟩ ∧
      UnitComp (len2 x y) x p ∧ UnitComp (len2 x y) y q) ∧
    (len2 x y ≤ 9999 / 100000000 → Pose2D.normalize ⟨fin x, fin y, t⟩ = .throws) := by
  obtain ⟨s, hs, hse⟩ := pose_threshold
  obtain ⟨s1, s2⟩ := abs_le.1 hse
  constructor
  · intro hl hu
    have h60 : (2 : ℝ) ^ (-60 : ℤ) ≤ 10001 / 100000000 := by norm_num
    obtain ⟨n, -, hn, -, he⟩ := C114_norm x y t (h60.trans hl) hu
    have hx := (abs_le_len x y 0).1
    have hy := (abs_le_len x y 0).2.1
    rw [len2_eq] at hx hy
    obtain ⟨p, p1, p2⟩ := pose_quot (by linarith) hx he
    obtain ⟨q, q1, q2⟩ := pose_quot (by linarith) hy he
    refine ⟨p, q, ?_, p2, q2⟩
    rw [show (2 : ℝ) ^ (-20 : ℤ) = 1 / 1048576 by norm_num] at he
    have hn1 := (abs_le.1 he).1
    have hc : ¬ lt (abs (fin n)) (round (1 / 10000)) := by
      rw [hs, abs, abs_of_nonneg (by linarith : 0 ≤ n)]
      refine not_lt.2 (show s ≤ n by linarith)
    rw [Pose2D.normalize, hn, if_neg hc]
    dsimp only
    rw [p1, q1]
  · intro h
    have e : ‖(⟨x, y⟩ : ℂ)‖ = len2 x y := by
      rw [Complex.norm_def, Complex.normSq_mk, len2, sq, sq]
    have h61 : (9999 / 100000000 : ℝ) ≤ 2 ^ 61 := by norm_num
    obtain ⟨n, hn, he⟩ := norm2_fin (X := x) (Y := y) (by rw [e]; exact h.trans h61)
    rw [e] at he
    have h72 : (2 : ℝ) ^ (-72 : ℤ) ≤ 1 / 1000000000000 := by norm_num
    have h0 : 0 ≤ len2 x y := Real.sqrt_nonneg _
    have hm := le_of_err he
    rw [abs_of_nonneg h0] at hm
    have hc : lt (abs (fin n)) (round (1 / 10000)) := by
      rw [hs, abs]
      refine (show |n| < s by
        generalize (2 : ℝ) ^ (-72 : ℤ) = w at *
        linarith)
    have hn' : Pose2D.norm ⟨fin x, fin y, t⟩ = fin n := hn
    rw [Pose2D.normalize, hn', if_pos hc]

/-! ### Examples -/

example : 2 ^ (-60 : ℤ) ≤ len2 3 4 ∧ len2 3 4 ≤ 2 ^ 62 ∧ 10001 / 100000000 ≤ len2 3 4 := by
  have : len2 3 4 = 5 := by
    rw [len2, show (3 : ℝ) ^ 2 + 4 ^ 2 = 5 ^ 2 by norm_num]
    exact Real.sqrt_sq (by norm_num)
  rw [this]
  norm_num

/-- A pose that is refused although the position with the same coordinates is normalised. -/
example : Pose2D.normalize ⟨fin (2 ^ (-20 : ℤ)), fin 0, fin 1⟩ = .throws ∧
    ∃ p q, Position2D.normalize ⟨fin (2 ^ (-20 : ℤ)), fin 0⟩ = .ok ⟨fin p, fin q⟩ := by
  have e : len2 (2 ^ (-20 : ℤ)) 0 = 2 ^ (-20 : ℤ) := by
    rw [len2, zero_pow (by norm_num), add_zero]
    exact Real.sqrt_sq (two_zpow_pos _).le
  refine ⟨(C114_pose_normalize _ _ _).2 (by rw [e]; norm_num), ?_⟩
  obtain ⟨p, q, h, -⟩ := C114_normalize (2 ^ (-20 : ℤ)) 0 (by rw [e]; exact two_zpow_le (by norm_num))
    (by rw [e]; norm_num)
  exact ⟨p, q, h⟩

example : |(3 : ℝ)| * |5| + |4| * |(-6)| ≤ 2 ^ 125 ∧ |(3 : ℝ)| * |(-6)| + |4| * |5| ≤ 2 ^ 125 := by norm_num

/-- Two points of the format at distance 5. -/
example : Rep 4 ∧ Rep 8 ∧ Rep 5 ∧ Rep 0 ∧ len2 (4 - 0) (8 - 5) = 5 := by
  refine ⟨⟨4, 0, by norm_num, by norm_num, by norm_num, by norm_num⟩, ⟨8, 0, by norm_num, by norm_num, by norm_num, by norm_num⟩,
    ⟨5, 0, by norm_num, by norm_num, by norm_num, by norm_num⟩, Rep.zero, ?_⟩
  rw [len2, show ((4 : ℝ) - 0) ^ 2 + (8 - 5) ^ 2 = 5 ^ 2 by norm_num]
  exact Real.sqrt_sq (by norm_num)

end AlMath.F32
