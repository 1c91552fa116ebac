import Verif.Lemmas.FloatDot

/-!
C77: accuracy of products, norms and normalisation of positions in single precision.
-/

namespace AlMath.F32

/-- The Euclidean norm. Not in /repo: specification. -/
noncomputable def len (x y z : ℝ) : ℝ := Real.sqrt (x ^ 2 + y ^ 2 + z ^ 2)

theorem len_nonneg (x y z : ℝ) : 0 ≤ len x y z := Real.sqrt_nonneg _

theorem len_sq (x y z : ℝ) : len x y z ^ 2 = x ^ 2 + y ^ 2 + z ^ 2 := Real.sq_sqrt (by positivity)

theorem abs_le_len (x y z : ℝ) : |x| ≤ len x y z ∧ |y| ≤ len x y z ∧ |z| ≤ len x y z := by
  unfold len
  refine ⟨?_, ?_, ?_⟩ <;> refine Real.abs_le_sqrt ?_ <;> nlinarith [sq_nonneg x, sq_nonneg y, sq_nonneg z]

/-- The dot product: the error is relative to the sum of the magnitudes of the terms. -/
theorem C77_dotProduct (a b c x y z : ℝ) (h : |a| * |x| + |b| * |y| + |c| * |z| ≤ 2 ^ 125) :
    ∃ d, Position3D.dotProduct ⟨fin a, fin b, fin c⟩ ⟨fin x, fin y, fin z⟩ = fin d ∧ Rep d ∧
      |d - (a * x + b * y + c * z)| ≤ 2 ^ (-22 : ℤ) * (|a| * |x| + |b| * |y| + |c| * |z|) + 2 ^ (-148 : ℤ) :=
  dot_fin h

/-- One component of the cross product. -/
theorem det2_fin {a b x y : ℝ} (h : |a| * |y| + |b| * |x| ≤ 2 ^ 125) :
    ∃ d, sub (mul (fin a) (fin y)) (mul (fin b) (fin x)) = fin d ∧ Rep d ∧
      |d - (a * y - b * x)| ≤ 2 ^ (-22 : ℤ) * (|a| * |y| + |b| * |x|) + 2 ^ (-148 : ℤ) := by
  have p1 := rnd_mul a y
  have p2 := rnd_mul b x
  have n1 : 0 ≤ |a| * |y| := by positivity
  have n2 : 0 ≤ |b| * |x| := by positivity
  have m1 : |a * y| = |a| * |y| := abs_mul _ _
  have m2 : |b * x| = |b| * |x| := abs_mul _ _
  have b1 : |rnd (a * y)| ≤ |a| * |y| + (2 ^ (-24 : ℤ) * (|a| * |y|) + 2 ^ (-150 : ℤ)) := by
    rw [← m1] at p1 ⊢
    exact le_of_err p1
  have b2 : |rnd (b * x)| ≤ |b| * |x| + (2 ^ (-24 : ℤ) * (|b| * |x|) + 2 ^ (-150 : ℤ)) := by
    rw [← m2] at p2 ⊢
    exact le_of_err p2
  have gn : Grid (-rnd (b * x)) := by
    rw [← rnd_neg]
    exact rnd_grid _
  have s := rnd_add (rnd_grid (a * y)) gn
  rw [← sub_eq_add_neg] at s
  have bs := abs_sub (rnd (a * y)) (rnd (b * x))
  have he := eta_pos
  have he1 := eta_le
  have h22 : (2 : ℝ) ^ (-22 : ℤ) = 1 / 4194304 := by norm_num
  rw [h22, four_eta]
  rw [two_neg24] at *
  generalize (2 : ℝ) ^ (-150 : ℤ) = η at *
  have big : (2 : ℝ) ^ 125 + 2 ^ 125 ≤ 2 ^ 127 := by norm_num
  have big1 : (16 : ℝ) ≤ 2 ^ 125 := by norm_num
  refine ⟨rnd (rnd (a * y) - rnd (b * x)), ?_, rnd_rep ?_, ?_⟩
  · rw [mul_fin, mul_fin, sub_fin]
    all_goals (try rw [m1]) <;> (try rw [m2]) <;>
      generalize (2 : ℝ) ^ 125 = M at * <;> generalize (2 : ℝ) ^ 127 = M' at * <;> linarith
  · generalize (2 : ℝ) ^ 125 = M at *
    generalize (2 : ℝ) ^ 127 = M' at *
    linarith
  · have e : rnd (rnd (a * y) - rnd (b * x)) - (a * y - b * x) =
        (rnd (rnd (a * y) - rnd (b * x)) - (rnd (a * y) - rnd (b * x))) + (rnd (a * y) - a * y) -
        (rnd (b * x) - b * x) := by ring
    rw [e]
    have q1 := abs_sub (rnd (rnd (a * y) - rnd (b * x)) - (rnd (a * y) - rnd (b * x)) + (rnd (a * y) - a * y)) (rnd (b * x) - b * x)
    have q2 := abs_add_le (rnd (rnd (a * y) - rnd (b * x)) - (rnd (a * y) - rnd (b * x))) (rnd (a * y) - a * y)
    linarith

/-- The cross product. -/
theorem C77_crossProduct (a b c x y z : ℝ) (h1 : |b| * |z| + |c| * |y| ≤ 2 ^ 125)
    (h2 : |c| * |x| + |a| * |z| ≤ 2 ^ 125) (h3 : |a| * |y| + |b| * |x| ≤ 2 ^ 125) :
    ∃ p q r, Position3D.crossProduct ⟨fin a, fin b, fin c⟩ ⟨fin x, fin y, fin z⟩ = ⟨fin p, fin q, fin r⟩ ∧
      |p - (b * z - c * y)| ≤ 2 ^ (-22 : ℤ) * (|b| * |z| + |c| * |y|) + 2 ^ (-148 : ℤ) ∧
      |q - (c * x - a * z)| ≤ 2 ^ (-22 : ℤ) * (|c| * |x| + |a| * |z|) + 2 ^ (-148 : ℤ) ∧
      |r - (a * y - b * x)| ≤ 2 ^ (-22 : ℤ) * (|a| * |y| + |b| * |x|) + 2 ^ (-148 : ℤ) := by
  obtain ⟨p, e1, -, k1⟩ := det2_fin h1
  obtain ⟨q, e2, -, k2⟩ := det2_fin h2
  obtain ⟨r, e3, -, k3⟩ := det2_fin h3
  exact ⟨p, q, r, by rw [Position3D.crossProduct]; simp only [e1, e2, e3], k1, k2, k3⟩

theorem le_iff_fin (x y : ℝ) : le (fin x) (fin y) ↔ x ≤ y := le_iff_lt_or_eq.symm

theorem le_of_sq_le_sq {a b : ℝ} (h : a ^ 2 ≤ b ^ 2) (hb : 0 ≤ b) : a ≤ b :=
  (le_abs_self a).trans (abs_le_of_sq_le_sq h hb)

theorem two_zpow_le {m n : ℤ} (h : m ≤ n) : (2 : ℝ) ^ m ≤ 2 ^ n := zpow_le_zpow_right₀ (by norm_num) h

/-- The norm of a vector that is neither tiny nor huge is accurate. -/
theorem C77_norm (x y z : ℝ) (hl : 2 ^ (-60 : ℤ) ≤ len x y z) (hu : len x y z ≤ 2 ^ 62) :
    ∃ n, Position3D.norm ⟨fin x, fin y, fin z⟩ = fin n ∧ Rep n ∧ |n - len x y z| ≤ 2 ^ (-20 : ℤ) * len x y z := by
  have hs := len_sq x y z
  have h0 := len_nonneg x y z
  generalize len x y z = N at *
  have e : |x| * |x| + |y| * |y| + |z| * |z| = N ^ 2 := by
    rw [hs, abs_mul_abs_self, abs_mul_abs_self, abs_mul_abs_self]
    ring
  obtain ⟨d, hd, -, herr⟩ := dot_fin (a := x) (b := y) (c := z) (x := x) (y := y) (z := z) (by
    rw [e]
    calc N ^ 2 ≤ (2 ^ 62) ^ 2 := by gcongr
      _ ≤ 2 ^ 125 := by norm_num)
  have hn2 : (2 : ℝ) ^ (-120 : ℤ) ≤ N ^ 2 := by
    calc (2 : ℝ) ^ (-120 : ℤ) = (2 ^ (-60 : ℤ)) ^ 2 := by rw [← zpow_natCast, ← zpow_mul]; norm_num
      _ ≤ N ^ 2 := by gcongr
  have h148 : (2 : ℝ) ^ (-148 : ℤ) ≤ 2 ^ (-28 : ℤ) * N ^ 2 := by
    calc (2 : ℝ) ^ (-148 : ℤ) = 2 ^ (-28 : ℤ) * 2 ^ (-120 : ℤ) := by rw [← zpow_add₀ (by norm_num)]; norm_num
      _ ≤ _ := by gcongr
  rw [e] at herr
  have e2 : x * x + y * y + z * z = N ^ 2 := by rw [hs]; ring
  rw [e2] at herr
  have hd2 : |d - N ^ 2| ≤ 2 ^ (-21 : ℤ) * N ^ 2 := by
    refine herr.trans ?_
    have : (0 : ℝ) ≤ N ^ 2 := by positivity
    norm_num at h148 ⊢
    linarith
  have hsq := sqrt_err h0 (by positivity) (by norm_num) hd2
  have hNp : 0 < N := lt_of_lt_of_le (two_zpow_pos _) hl
  have hd0 : ¬ d < 0 := by
    have := (abs_le.1 hd2).1
    have : (0 : ℝ) ≤ N ^ 2 := by positivity
    norm_num at *
    linarith
  have habs := abs_le.1 hsq
  have hsl : 2 ^ (-126 : ℤ) ≤ |Real.sqrt d| := by
    rw [abs_of_nonneg (Real.sqrt_nonneg d)]
    have h61 : (2 : ℝ) ^ (-126 : ℤ) ≤ 2 ^ (-61 : ℤ) := two_zpow_le (by norm_num)
    have h62 : (2 : ℝ) ^ (-61 : ℤ) = 2 ^ (-60 : ℤ) / 2 := by norm_num
    have := habs.1
    have h63 : (2 : ℝ) ^ (-21 : ℤ) * N ≤ N / 2 := by norm_num; linarith
    generalize (2 : ℝ) ^ (-21 : ℤ) * N = b1 at *
    generalize (2 : ℝ) ^ (-126 : ℤ) = b2 at *
    generalize (2 : ℝ) ^ (-61 : ℤ) = b3 at *
    generalize (2 : ℝ) ^ (-60 : ℤ) = b4 at *
    linarith
  have hsu : |Real.sqrt d| ≤ 2 ^ 127 := by
    rw [abs_of_nonneg (Real.sqrt_nonneg d)]
    have := habs.2
    norm_num at hu this ⊢
    linarith
  have hr := rnd_rel hsl
  refine ⟨rnd (Real.sqrt d), ?_, rnd_rep hsu, ?_⟩
  · rw [Position3D.norm]
    dsimp only
    rw [hd, sqrt, if_neg hd0, round_fin hsu]
  · rw [abs_of_nonneg (Real.sqrt_nonneg d)] at hr
    have q := abs_add_le (rnd (Real.sqrt d) - Real.sqrt d) (Real.sqrt d - N)
    rw [show rnd (Real.sqrt d) - Real.sqrt d + (Real.sqrt d - N) = rnd (Real.sqrt d) - N by ring] at q
    have := habs.2
    norm_num at hr hsq q this ⊢
    linarith

/-- One component of the division by a norm. -/
theorem scale_err {x n N : ℝ} (hl : 2 ^ (-60 : ℤ) ≤ N) (hu : N ≤ 2 ^ 62) (hx : |x| ≤ N)
    (hn : |n - N| ≤ 2 ^ (-20 : ℤ) * N) :
    ∃ i q, div (fin 1) (fin n) = fin i ∧ mul (fin x) (fin i) = fin q ∧ i = rnd (1 / n) ∧ Rep q ∧
      |q - x / N| ≤ 2 ^ (-19 : ℤ) * (|x| / N) + 2 ^ (-150 : ℤ) := by
  have hNp : 0 < N := lt_of_lt_of_le (two_zpow_pos _) hl
  obtain ⟨n1, n2⟩ := abs_le.1 hn
  have hnp : 0 < n := by
    norm_num at n1
    linarith
  have hi : |1 / n| ≤ 2 ^ 127 := by
    rw [abs_of_pos (by positivity), div_le_iff₀ hnp]
    have : (2 : ℝ) ^ (-61 : ℤ) ≤ n := by
      have h62 : (2 : ℝ) ^ (-61 : ℤ) = 2 ^ (-60 : ℤ) / 2 := by norm_num
      norm_num at n1
      generalize (2 : ℝ) ^ (-61 : ℤ) = b3 at *
      generalize (2 : ℝ) ^ (-60 : ℤ) = b4 at *
      linarith
    calc (1 : ℝ) ≤ 2 ^ 127 * 2 ^ (-61 : ℤ) := by norm_num
      _ ≤ _ := by gcongr
  have hil : 2 ^ (-126 : ℤ) ≤ |1 / n| := by
    rw [abs_of_pos (by positivity), le_div_iff₀ hnp]
    have h2 : n ≤ 2 ^ 63 := by
      norm_num at n2 hu ⊢
      linarith
    calc (2 : ℝ) ^ (-126 : ℤ) * n ≤ 2 ^ (-126 : ℤ) * 2 ^ 63 := by gcongr
      _ ≤ 1 := by norm_num
  have hr := rnd_rel hil
  rw [abs_of_pos (by positivity : 0 < 1 / n)] at hr
  -- the inverse, relative to the exact one
  have hinv : |1 / n - 1 / N| ≤ (2 ^ (-20 : ℤ) + 2 ^ (-30 : ℤ)) * (1 / N) := by
    have : 1 / n - 1 / N = (N - n) / n * (1 / N) := by field_simp
    rw [this, abs_mul, abs_of_pos (by positivity : 0 < 1 / N)]
    refine mul_le_mul_of_nonneg_right ?_ (by positivity)
    rw [abs_div, abs_of_pos hnp, div_le_iff₀ hnp, abs_sub_comm]
    norm_num at hn n1 n2 ⊢
    linarith
  have hri : |rnd (1 / n) - 1 / N| ≤ (2 ^ (-20 : ℤ) + 2 ^ (-23 : ℤ)) * (1 / N) := by
    have q := abs_add_le (rnd (1 / n) - 1 / n) (1 / n - 1 / N)
    rw [show rnd (1 / n) - 1 / n + (1 / n - 1 / N) = rnd (1 / n) - 1 / N by ring] at q
    have h3 := (abs_le.1 hinv).2
    have hp : 0 < 1 / N := by positivity
    generalize rnd (1 / n) - 1 / N = w at *
    generalize rnd (1 / n) - 1 / n = w' at *
    generalize 1 / n = a at *
    generalize 1 / N = b at *
    norm_num at hr hinv q h3 ⊢
    linarith
  have hxi : |x * rnd (1 / n) - x / N| ≤ (2 ^ (-20 : ℤ) + 2 ^ (-23 : ℤ)) * (|x| / N) := by
    have : x * rnd (1 / n) - x / N = x * (rnd (1 / n) - 1 / N) := by ring
    rw [this, abs_mul]
    calc |x| * |rnd (1 / n) - 1 / N| ≤ |x| * ((2 ^ (-20 : ℤ) + 2 ^ (-23 : ℤ)) * (1 / N)) := by gcongr
      _ = _ := by ring
  have hxN : |x / N| = |x| / N := by rw [abs_div, abs_of_pos hNp]
  have hxN1 : |x| / N ≤ 1 := by rwa [div_le_one hNp]
  have hxN0 : 0 ≤ |x| / N := by positivity
  have hm := le_of_err hxi
  rw [hxN] at hm
  have hmu : |x * rnd (1 / n)| ≤ 2 ^ 127 := by
    norm_num at hm ⊢
    linarith
  have hg := rnd_gen (x * rnd (1 / n))
  refine ⟨rnd (1 / n), rnd (x * rnd (1 / n)), ?_, mul_fin hmu, rfl, rnd_rep hmu, ?_⟩
  · rw [div, if_neg hnp.ne', round_fin hi]
  · have q := abs_add_le (rnd (x * rnd (1 / n)) - x * rnd (1 / n)) (x * rnd (1 / n) - x / N)
    rw [show rnd (x * rnd (1 / n)) - x * rnd (1 / n) + (x * rnd (1 / n) - x / N) =
      rnd (x * rnd (1 / n)) - x / N by ring] at q
    generalize (2 : ℝ) ^ (-150 : ℤ) = η at *
    generalize rnd (x * rnd (1 / n)) - x / N = w1 at *
    generalize |rnd (x * rnd (1 / n)) - x * rnd (1 / n)| = w2 at *
    generalize |x * rnd (1 / n) - x / N| = w3 at *
    generalize |x * rnd (1 / n)| = w4 at *
    generalize |x| / N = w5 at *
    norm_num at hm hg hxi ⊢
    linarith

/-- Normalising a vector that is neither tiny nor huge gives the unit vector of the same direction, with a
relative error in each component. -/
theorem C77_normalize (x y z : ℝ) (hl : 2 ^ (-60 : ℤ) ≤ len x y z) (hu : len x y z ≤ 2 ^ 62) :
    ∃ p q r, Position3D.normalize ⟨fin x, fin y, fin z⟩ = .ok ⟨fin p, fin q, fin r⟩ ∧
      Rep p ∧ Rep q ∧ Rep r ∧
      |p - x / len x y z| ≤ 2 ^ (-19 : ℤ) * (|x| / len x y z) + 2 ^ (-150 : ℤ) ∧
      |q - y / len x y z| ≤ 2 ^ (-19 : ℤ) * (|y| / len x y z) + 2 ^ (-150 : ℤ) ∧
      |r - z / len x y z| ≤ 2 ^ (-19 : ℤ) * (|z| / len x y z) + 2 ^ (-150 : ℤ) := by
  obtain ⟨n, hn, -, he⟩ := C77_norm x y z hl hu
  obtain ⟨hx, hy, hz⟩ := abs_le_len x y z
  obtain ⟨i, p, h1, h2, h3, h4, h5⟩ := scale_err hl hu hx he
  obtain ⟨j, q, k1, k2, k3, k4, k5⟩ := scale_err hl hu hy he
  obtain ⟨k, r, l1, l2, l3, l4, l5⟩ := scale_err hl hu hz he
  have hn0 : ¬ eq (fin n) (fin 0) := by
    have hNp : 0 < len x y z := lt_of_lt_of_le (two_zpow_pos _) hl
    have := (abs_le.1 he).1
    intro hc
    have hc : n = 0 := hc
    rw [hc] at this
    norm_num at this
    linarith
  subst h3 k3 l3
  refine ⟨p, q, r, ?_, h4, k4, l4, h5, k5, l5⟩
  rw [Position3D.normalize, hn, if_neg hn0, Position3D.div, if_neg hn0, Position3D.smul]
  dsimp only
  rw [h1, h2, k2, l2]

/-- The length of a vector whose components are relatively accurate. -/
theorem len_err {x y z p q r N δ η : ℝ} (hδ : 0 ≤ δ) (hη : 0 ≤ η)
    (hN : len x y z = N) (hN0 : 0 < N) (h1 : |p - x / N| ≤ δ * (|x| / N) + η)
    (h2 : |q - y / N| ≤ δ * (|y| / N) + η) (h3 : |r - z / N| ≤ δ * (|z| / N) + η) :
    |len p q r - 1| ≤ δ + 3 * η := by
  have hs := len_sq x y z
  rw [hN] at hs
  set a := |x| / N with ha
  set b := |y| / N with hb
  set c := |z| / N with hc
  have ha0 : 0 ≤ a := by positivity
  have hb0 : 0 ≤ b := by positivity
  have hc0 : 0 ≤ c := by positivity
  have hsum : a ^ 2 + b ^ 2 + c ^ 2 = 1 := by
    rw [ha, hb, hc, div_pow, div_pow, div_pow, sq_abs, sq_abs, sq_abs, ← add_div, ← add_div, ← hs]
    exact div_self (by positivity)
  have hax : |x / N| = a := by rw [abs_div, abs_of_pos hN0]
  have hby : |y / N| = b := by rw [abs_div, abs_of_pos hN0]
  have hcz : |z / N| = c := by rw [abs_div, abs_of_pos hN0]
  have ha1 : a ≤ 1 := by nlinarith
  have hb1 : b ≤ 1 := by nlinarith
  have hc1 : c ≤ 1 := by nlinarith
  have key : ∀ {p w a : ℝ}, |w| = a → 0 ≤ a → |p - w| ≤ δ * a + η → |p| ≤ (1 + δ) * a + η ∧ (1 - δ) * a - η ≤ |p| := by
    intro p w a hw ha h
    have h4 := abs_sub_abs_le_abs_sub p w
    have h5 := abs_sub_abs_le_abs_sub w p
    rw [abs_sub_comm w p] at h5
    rw [hw] at h4 h5
    constructor <;> linarith
  obtain ⟨p1, p2⟩ := key hax ha0 h1
  obtain ⟨q1, q2⟩ := key hby hb0 h2
  obtain ⟨r1, r2⟩ := key hcz hc0 h3
  have hsq : len p q r ^ 2 = |p| ^ 2 + |q| ^ 2 + |r| ^ 2 := by
    rw [len_sq, sq_abs, sq_abs, sq_abs]
  have hl0 := len_nonneg p q r
  have hp0 := abs_nonneg p
  have hq0 := abs_nonneg q
  have hr0 := abs_nonneg r
  generalize len p q r = L at *
  generalize |p| = P at *
  generalize |q| = Q at *
  generalize |r| = R at *
  rw [abs_le]
  constructor
  · have hcs : (a * P + b * Q + c * R) ^ 2 ≤ L ^ 2 := by
      rw [hsq]
      have : P ^ 2 + Q ^ 2 + R ^ 2 = (a ^ 2 + b ^ 2 + c ^ 2) * (P ^ 2 + Q ^ 2 + R ^ 2) := by rw [hsum, one_mul]
      rw [this]
      linarith only [sq_nonneg (a * Q - b * P), sq_nonneg (a * R - c * P), sq_nonneg (b * R - c * Q),
        show (a ^ 2 + b ^ 2 + c ^ 2) * (P ^ 2 + Q ^ 2 + R ^ 2) = (a * P + b * Q + c * R) ^ 2 +
          (a * Q - b * P) ^ 2 + (a * R - c * P) ^ 2 + (b * R - c * Q) ^ 2 by ring]
    have hle : a * P + b * Q + c * R ≤ L := le_of_sq_le_sq hcs hl0
    have k1 := mul_le_mul_of_nonneg_left p2 ha0
    have k2 := mul_le_mul_of_nonneg_left q2 hb0
    have k3 := mul_le_mul_of_nonneg_left r2 hc0
    have e : a * ((1 - δ) * a - η) + b * ((1 - δ) * b - η) + c * ((1 - δ) * c - η) =
        (1 - δ) * (a ^ 2 + b ^ 2 + c ^ 2) - η * (a + b + c) := by ring
    have : η * (a + b + c) ≤ η * 3 := mul_le_mul_of_nonneg_left (by linarith) hη
    rw [hsum] at e
    linarith
  · have h4 : P ^ 2 ≤ ((1 + δ) * a + η) ^ 2 := by gcongr
    have h5 : Q ^ 2 ≤ ((1 + δ) * b + η) ^ 2 := by gcongr
    have h6 : R ^ 2 ≤ ((1 + δ) * c + η) ^ 2 := by gcongr
    have e : ((1 + δ) * a + η) ^ 2 + ((1 + δ) * b + η) ^ 2 + ((1 + δ) * c + η) ^ 2 =
        (1 + δ) ^ 2 * (a ^ 2 + b ^ 2 + c ^ 2) + 2 * ((1 + δ) * η) * (a + b + c) + 3 * η ^ 2 := by ring
    have h7 : 2 * ((1 + δ) * η) * (a + b + c) ≤ 2 * ((1 + δ) * η) * 3 :=
      mul_le_mul_of_nonneg_left (by linarith) (by positivity)
    rw [hsum] at e
    have : L ^ 2 ≤ (1 + δ + 3 * η) ^ 2 := by
      rw [hsq]
      have h8 : (1 + δ + 3 * η) ^ 2 = (1 + δ) ^ 2 + 2 * ((1 + δ) * η) * 3 + 9 * η ^ 2 := by ring
      rw [h8]
      have := sq_nonneg η
      linarith only [h4, h5, h6, h7, e, this]
    have := le_of_sq_le_sq this (by positivity)
    linarith

/-- What was normalised is a unit vector for the library: the test passes for every tolerance from 2^-17 on,
in particular for the default tolerance of 0.0001. -/
theorem C77_unit (x y z e : ℝ) (hl : 2 ^ (-60 : ℤ) ≤ len x y z) (hu : len x y z ≤ 2 ^ 62)
    (he : 2 ^ (-17 : ℤ) ≤ e) :
    ∃ v, Position3D.normalize ⟨fin x, fin y, fin z⟩ = .ok v ∧ Position3D.isUnitVector v (fin e) := by
  obtain ⟨p, q, r, hv, -, -, -, h1, h2, h3⟩ := C77_normalize x y z hl hu
  refine ⟨_, hv, ?_⟩
  have hNp : 0 < len x y z := lt_of_lt_of_le (two_zpow_pos _) hl
  have h4 := len_err (by positivity) (by positivity) rfl hNp h1 h2 h3
  have h5 : (3 : ℝ) * 2 ^ (-150 : ℤ) ≤ 2 ^ (-21 : ℤ) := by norm_num
  obtain ⟨h6, h7⟩ := abs_le.1 h4
  obtain ⟨n, hn, -, hne⟩ := C77_norm p q r
    (by
      have : (2 : ℝ) ^ (-60 : ℤ) ≤ 1 / 2 := by norm_num
      generalize (2 : ℝ) ^ (-60 : ℤ) = b1 at *
      generalize (2 : ℝ) ^ (-150 : ℤ) = b2 at *
      norm_num at h5 h6
      linarith)
    (by
      generalize (2 : ℝ) ^ (-150 : ℤ) = b2 at *
      norm_num at h5 h7 ⊢
      linarith)
  have h8 : |1 - n| ≤ 2 ^ (-18 : ℤ) := by
    have ht := abs_add_le (1 - len p q r) (len p q r - n)
    rw [show 1 - len p q r + (len p q r - n) = 1 - n by ring, abs_sub_comm 1 (len p q r),
      abs_sub_comm (len p q r) n] at ht
    generalize (2 : ℝ) ^ (-150 : ℤ) = b2 at *
    norm_num at h4 h5 h7 hne ht ⊢
    linarith
  have h9 : |1 - n| ≤ 2 ^ 127 := h8.trans (by norm_num)
  rw [Position3D.isUnitVector, hn, sub_fin h9, abs, le_iff_fin, abs_rnd]
  refine (rnd_le_of_le (g := 2 ^ (-18 : ℤ)) (Rep.two_zpow (by norm_num) (by norm_num)).grid h8).trans ?_
  exact (two_zpow_le (by norm_num)).trans he

/-- A vector all of whose components are tiny but not 0 is not normalised: its norm underflows to 0. -/
theorem C77_underflow (x y z : ℝ) (hx : |x| ≤ 2 ^ (-75 : ℤ)) (hy : |y| ≤ 2 ^ (-75 : ℤ)) (hz : |z| ≤ 2 ^ (-75 : ℤ)) :
    Position3D.norm ⟨fin x, fin y, fin z⟩ = fin 0 ∧ Position3D.normalize ⟨fin x, fin y, fin z⟩ = .throws := by
  have key : ∀ {x : ℝ}, |x| ≤ 2 ^ (-75 : ℤ) → mul (fin x) (fin x) = fin 0 := by
    intro x hx
    have h : |x * x| ≤ 2 ^ (-150 : ℤ) := by
      rw [abs_mul]
      calc |x| * |x| ≤ 2 ^ (-75 : ℤ) * 2 ^ (-75 : ℤ) := by gcongr
        _ = 2 ^ (-150 : ℤ) := by rw [← zpow_add₀ (by norm_num)]; norm_num
    rw [mul_fin (h.trans (by norm_num)), rnd_tiny h]
  have r0 : round 0 = fin 0 := round_rep Rep.zero
  have hn : Position3D.norm ⟨fin x, fin y, fin z⟩ = fin 0 := by
    rw [Position3D.norm, dot]
    dsimp only
    rw [key hx, key hy, key hz, add, add_zero, r0, add, add_zero, r0, sqrt, if_neg (lt_irrefl 0), Real.sqrt_zero, r0]
  exact ⟨hn, by rw [Position3D.normalize, hn, if_pos (show eq (fin 0) (fin 0) from rfl)]⟩

/-- A finite vector with a huge component is normalised to the zero vector, without an
exception: its norm overflows to infinity. -/
theorem C77_overflow (x y z : ℝ) (h : 2 ^ 64 ≤ |x| ∨ 2 ^ 64 ≤ |y| ∨ 2 ^ 64 ≤ |z|) :
    Position3D.norm ⟨fin x, fin y, fin z⟩ = pinf ∧
    Position3D.normalize ⟨fin x, fin y, fin z⟩ = .ok ⟨fin 0, fin 0, fin 0⟩ := by
  have big : ∀ {x : ℝ}, 2 ^ 64 ≤ |x| → mul (fin x) (fin x) = pinf := by
    intro x hx
    refine round_pinf ?_
    rw [← abs_mul_abs_self]
    calc (2 : ℝ) ^ 128 = 2 ^ 64 * 2 ^ 64 := by norm_num
      _ ≤ _ := by gcongr
  have sq : ∀ x : ℝ, mul (fin x) (fin x) = pinf ∨ ∃ v, mul (fin x) (fin x) = fin v ∧ 0 ≤ v := by
    intro x
    have h0 : 0 ≤ rnd (x * x) := by
      have := rnd_mono (mul_self_nonneg x)
      rwa [rnd_zero] at this
    rw [mul, round]
    split_ifs with h1 h2
    · exact .inl rfl
    · linarith [show (0 : ℝ) < 2 ^ 128 by positivity]
    · exact .inr ⟨_, rfl, h0⟩
  have sum : ∀ {a b : F32}, (a = pinf ∨ ∃ v, a = fin v ∧ 0 ≤ v) → (b = pinf ∨ ∃ v, b = fin v ∧ 0 ≤ v) →
      (add a b = pinf ∨ ∃ v, add a b = fin v ∧ 0 ≤ v) ∧ (a = pinf ∨ b = pinf → add a b = pinf) := by
    rintro a b (rfl | ⟨v, rfl, hv⟩) (rfl | ⟨w, rfl, hw⟩)
    · exact ⟨.inl rfl, fun _ => rfl⟩
    · exact ⟨.inl rfl, fun _ => rfl⟩
    · exact ⟨.inl rfl, fun _ => rfl⟩
    · refine ⟨?_, by simp⟩
      have h0 : 0 ≤ rnd (v + w) := by
        have := rnd_mono (add_nonneg hv hw)
        rwa [rnd_zero] at this
      rw [add, round]
      split_ifs with h1 h2
      · exact .inl rfl
      · linarith [show (0 : ℝ) < 2 ^ 128 by positivity]
      · exact .inr ⟨_, rfl, h0⟩
  have hxy := sum (sq x) (sq y)
  have hxyz := sum hxy.1 (sq z)
  have hn : Position3D.norm ⟨fin x, fin y, fin z⟩ = pinf := by
    have : dot (fin x) (fin y) (fin z) (fin x) (fin y) (fin z) = pinf := by
      refine hxyz.2 ?_
      rcases h with h | h | h
      · exact .inl (hxy.2 (.inl (big h)))
      · exact .inl (hxy.2 (.inr (big h)))
      · exact .inr (big h)
    rw [Position3D.norm]
    dsimp only
    rw [this, sqrt]
  have hne : ¬ eq pinf (fin 0) := fun h => h
  have r0 : round 0 = fin 0 := round_rep Rep.zero
  refine ⟨hn, ?_⟩
  rw [Position3D.normalize, hn, if_neg hne, Position3D.div, if_neg hne, Position3D.smul]
  simp only [div, mul, mul_zero, r0]

/-! ### Examples -/

example : 2 ^ (-60 : ℤ) ≤ len 3 4 0 ∧ len 3 4 0 ≤ 2 ^ 62 := by
  have : len 3 4 0 = 5 := by
    rw [len, show (3 : ℝ) ^ 2 + 4 ^ 2 + 0 ^ 2 = 5 ^ 2 by norm_num]
    exact Real.sqrt_sq (by norm_num)
  rw [this]
  norm_num

/-- Non-zero vectors of the format that are not normalised. -/
example : Rep (2 ^ (-80 : ℤ)) ∧ Position3D.normalize ⟨fin (2 ^ (-80 : ℤ)), fin 0, fin 0⟩ = .throws ∧
    Rep (2 ^ (70 : ℤ)) ∧ Position3D.normalize ⟨fin (2 ^ (70 : ℤ)), fin 0, fin 0⟩ = .ok ⟨fin 0, fin 0, fin 0⟩ := by
  refine ⟨Rep.two_zpow (by norm_num) (by norm_num), (C77_underflow _ _ _ ?_ ?_ ?_).2,
    Rep.two_zpow (by norm_num) (by norm_num), (C77_overflow _ _ _ (.inl ?_)).2⟩
  · rw [abs_of_pos (two_zpow_pos _)]
    exact two_zpow_le (by norm_num)
  · rw [abs_zero]
    exact (two_zpow_pos _).le
  · rw [abs_zero]
    exact (two_zpow_pos _).le
  · rw [abs_of_pos (two_zpow_pos _)]
    norm_num

end AlMath.F32
