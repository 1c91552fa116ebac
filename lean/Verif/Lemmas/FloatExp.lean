import Verif.Model.FloatExp
import Verif.Lemmas.FloatNear
import Verif.Spec.FloatMatrix

/-!
Errors of the entries of the matrix of `velocityExponential`, from the errors of its three coefficients.
-/

namespace AlMath.F32

open AlMath.Spec

theorem rnd_bnd (x : ℝ) : |rnd x - x| ≤ 1 / 16777216 * |x| + 1 / 10 ^ 25 := by
  have h := rnd_gen x
  have h2 : (2 : ℝ) ^ (-150 : ℤ) ≤ 1 / 10 ^ 25 := by
    rw [zpow_neg, ← one_div]
    exact one_div_le_one_div_of_le (by norm_num) (by norm_num)
  rw [two_neg24] at h
  linarith

theorem Near.rounded {t x ε M : ℝ} (ht : |t - x| ≤ ε) (hx : |x| ≤ M) (hM : M + ε ≤ 2 ^ 100) {θ : ℝ}
    (hθ : ε + (1 / 16777216 * (M + ε) + 1 / 10 ^ 25) ≤ θ) : Near (F32.round t) x θ := by
  have h1 := le_of_err ht
  have h2 : |t| ≤ M + ε := by linarith
  have h3 : |t| ≤ 2 ^ 127 := (h2.trans hM).trans (by norm_num)
  refine ⟨rnd t, round_fin h3, rnd_rep h3, ?_⟩
  have h4 := rnd_bnd t
  have h5 := abs_add_le (rnd t - t) (t - x)
  rw [sub_add_sub_cancel] at h5
  linarith

theorem Near.sum {f g : F32} {x y ε δ M θ : ℝ} (hf : Near f x ε) (hg : Near g y δ) (hx : |x + y| ≤ M)
    (hM : M + (ε + δ) ≤ 2 ^ 100) (hθ : ε + δ + (1 / 16777216 * (M + (ε + δ)) + 1 / 10 ^ 25) ≤ θ) :
    Near (F32.add f g) (x + y) θ := by
  obtain ⟨s, rfl, h1, h2⟩ := hf
  obtain ⟨t, rfl, k1, k2⟩ := hg
  have e : s + t - (x + y) = (s - x) + (t - y) := by ring
  have h3 : |s + t - (x + y)| ≤ ε + δ := by
    rw [e]
    exact (abs_add_le _ _).trans (add_le_add h2 k2)
  exact Near.rounded h3 hx hM hθ

/-- A coefficient times a component. -/
theorem pair_near {s k c t e K : ℝ} (h : |s - k| * t ≤ e) (hk : |k| * t ≤ K) (hc : |c| ≤ t) (hK : K ≤ 10) (he : e ≤ 1)
    {θ : ℝ} (hθ : e + (1 / 16777216 * (K + e) + 1 / 10 ^ 25) ≤ θ) : Near (mul (fin s) (fin c)) (k * c) θ := by
  refine Near.rounded (ε := e) (M := K) ?_ ?_ (by linarith [show (100 : ℝ) ≤ 2 ^ 100 by norm_num]) hθ
  · rw [← sub_mul, abs_mul]
    exact (mul_le_mul_of_nonneg_left hc (abs_nonneg _)).trans h
  · rw [abs_mul]
    exact (mul_le_mul_of_nonneg_left hc (abs_nonneg _)).trans hk

theorem abs_mul_le_sq {a b t : ℝ} (ha : |a| ≤ t) (hb : |b| ≤ t) : |a * b| ≤ t ^ 2 := by
  rw [abs_mul, sq]
  exact mul_le_mul ha hb (abs_nonneg _) ((abs_nonneg _).trans ha)

/-- A coefficient times two components. -/
theorem triple_near {s k a b t e K : ℝ} (h : |s - k| * t ^ 2 ≤ e) (hk : |k| * t ^ 2 ≤ K) (ha : |a| ≤ t) (hb : |b| ≤ t)
    (ht : t ≤ 65536) (hs : |s| ≤ 2 ^ 60) (hK : K ≤ 10) (he : e ≤ 1)
    {θ : ℝ} (hθ : e + (2.01 / 16777216 * (K + e) + 1 / 10 ^ 19) ≤ θ) :
    Near (mul (mul (fin s) (fin a)) (fin b)) (k * a * b) θ := by
  have t0 : 0 ≤ t := (abs_nonneg a).trans ha
  have e0 : 0 ≤ e := le_trans (by positivity) h
  have K0 : 0 ≤ K := le_trans (by positivity) hk
  have h1 : |s * a| ≤ 2 ^ 80 := by
    rw [abs_mul]
    calc |s| * |a| ≤ 2 ^ 60 * 65536 := mul_le_mul hs (ha.trans ht) (abs_nonneg _) (by positivity)
      _ ≤ 2 ^ 80 := by norm_num
  have h2 : mul (fin s) (fin a) = fin (rnd (s * a)) := mul_fin (h1.trans (by norm_num))
  have r := rnd_bnd (s * a)
  have h3 : |s * (a * b) - k * (a * b)| ≤ e := by
    rw [← sub_mul, abs_mul]
    exact (mul_le_mul_of_nonneg_left (abs_mul_le_sq ha hb) (abs_nonneg _)).trans h
  have h4 : |k * (a * b)| ≤ K := by
    rw [abs_mul]
    exact (mul_le_mul_of_nonneg_left (abs_mul_le_sq ha hb) (abs_nonneg _)).trans hk
  have h5 : |s * (a * b)| ≤ K + e := (le_of_err h3).trans (by linarith)
  have h6 : |rnd (s * a) * b - s * (a * b)| ≤ 1 / 16777216 * (K + e) + 65536 / 10 ^ 25 := by
    have e1 : rnd (s * a) * b - s * (a * b) = (rnd (s * a) - s * a) * b := by ring
    rw [e1, abs_mul]
    have e2 : |s * a| * |b| = |s * (a * b)| := by rw [← abs_mul, mul_assoc]
    have := mul_le_mul_of_nonneg_right r (abs_nonneg b)
    rw [add_mul, mul_assoc, e2] at this
    have := hb.trans ht
    linarith
  rw [h2, mul_assoc]
  refine Near.rounded (ε := e + (1 / 16777216 * (K + e) + 65536 / 10 ^ 25)) (M := K) ?_ h4 ?_ ?_
  · have := abs_add_le (rnd (s * a) * b - s * (a * b)) (s * (a * b) - k * (a * b))
    rw [sub_add_sub_cancel] at this
    linarith
  · linarith [show (100 : ℝ) ≤ 2 ^ 100 by norm_num]
  · linarith

/-- A diagonal entry of the rotation. -/
theorem expDiag_near {s k b c t e : ℝ} (h : |s - k| * t ^ 2 ≤ e) (hk : |k| * t ^ 2 ≤ 2) (hk0 : 0 ≤ k)
    (hbc : c * c + b * b ≤ t ^ 2) (ht : |t| ≤ 65536) (hs : |s| ≤ 2) (he : e ≤ 1) {θ : ℝ}
    (hθ : e + 7.3 / 16777216 + 6 / 16777216 * e ≤ θ) :
    Near (sub (fin 1) (mul (fin s) (add (mul (fin c) (fin c)) (mul (fin b) (fin b))))) (1 - k * (c * c + b * b)) θ := by
  have e0 : 0 ≤ e := le_trans (by positivity) h
  have c0 := mul_self_nonneg c
  have b0 := mul_self_nonneg b
  have t2 : t ^ 2 ≤ 4294967296 := by rw [← sq_abs]; nlinarith [abs_nonneg t]
  have n1 := rnd_bnd (c * c)
  have n2 := rnd_bnd (b * b)
  rw [abs_of_nonneg c0] at n1
  rw [abs_of_nonneg b0] at n2
  have m1 : mul (fin c) (fin c) = fin (rnd (c * c)) := mul_fin (by rw [abs_of_nonneg c0]; norm_num; linarith)
  have m2 : mul (fin b) (fin b) = fin (rnd (b * b)) := mul_fin (by rw [abs_of_nonneg b0]; norm_num; linarith)
  rw [m1, m2]
  generalize hq : c * c + b * b = q at *
  have q0 : 0 ≤ q := by linarith
  have n3 : |rnd (c * c) + rnd (b * b) - q| ≤ 1 / 16777216 * q + 2 / 10 ^ 25 := by
    rw [← hq] at *
    rw [abs_le] at *
    constructor <;> linarith
  have n4 : |rnd (c * c) + rnd (b * b)| ≤ 1.01 * q + 2 / 10 ^ 25 := by
    have := le_of_err n3
    rw [abs_of_nonneg q0] at this
    linarith
  have m3 : add (fin (rnd (c * c))) (fin (rnd (b * b))) = fin (rnd (rnd (c * c) + rnd (b * b))) :=
    add_fin (n4.trans (by norm_num; linarith))
  rw [m3]
  have n5 := rnd_bnd (rnd (c * c) + rnd (b * b))
  generalize rnd (rnd (c * c) + rnd (b * b)) = r at *
  have n6 : |r - q| ≤ 2.02 / 16777216 * q + 4 / 10 ^ 25 := by
    have := abs_add_le (r - (rnd (c * c) + rnd (b * b))) (rnd (c * c) + rnd (b * b) - q)
    rw [sub_add_sub_cancel] at this
    linarith
  have p1 : |s - k| * q ≤ e := (mul_le_mul_of_nonneg_left hbc (abs_nonneg _)).trans h
  have p2 : |k| * q ≤ 2 := (mul_le_mul_of_nonneg_left hbc (abs_nonneg _)).trans hk
  have p3 : |s| * q ≤ 2 + e := by
    have := mul_le_mul_of_nonneg_right (abs_sub_abs_le_abs_sub s k) q0
    rw [sub_mul] at this
    linarith
  have p4 : |s * r - k * q| ≤ e + (2.02 / 16777216 * (2 + e) + 8 / 10 ^ 25) := by
    have e1 : s * r - k * q = s * (r - q) + (s - k) * q := by ring
    rw [e1]
    refine (abs_add_le _ _).trans ?_
    rw [abs_mul, abs_mul, abs_of_nonneg q0]
    have := mul_le_mul_of_nonneg_left n6 (abs_nonneg s)
    have e2 : |s| * (2.02 / 16777216 * q + 4 / 10 ^ 25) = 2.02 / 16777216 * (|s| * q) + 4 / 10 ^ 25 * |s| := by ring
    rw [e2] at this
    linarith
  have p5 : |k * q| ≤ 2 := by rw [abs_mul, abs_of_nonneg q0]; exact p2
  have p6 : Near (mul (fin s) (fin r)) (k * q) (e + 6.2 / 16777216 + 3.1 / 16777216 * e) :=
    Near.rounded p4 p5 (by linarith [show (100 : ℝ) ≤ 2 ^ 100 by norm_num]) (by linarith)
  rw [F32.sub, sub_eq_add_neg]
  refine Near.sum (Near.of_rep Rep.one) p6.neg (M := 1) ?_ (by linarith [show (100 : ℝ) ≤ 2 ^ 100 by norm_num]) ?_
  · have k1 := mul_nonneg hk0 q0
    have k2 := (abs_le.1 p5).2
    rw [abs_le]
    constructor <;> linarith
  · linarith

/-- Another entry of the rotation. -/
theorem expOff_near {s k σ κ a b c t e f : ℝ} (h : |s - k| * t ^ 2 ≤ e) (hk : |k| * t ^ 2 ≤ 2) (ha : |a| ≤ t) (hb : |b| ≤ t)
    (hc : |c| ≤ t) (ht : t ≤ 65536) (hs : |s| ≤ 2) (he : e ≤ 1) (hσ : |σ - κ| * t ≤ f) (hκ : |κ| * t ≤ 1) (hf : f ≤ 1)
    {θ : ℝ} (hθ : e + f + 8.2 / 16777216 + 4 / 16777216 * (e + f) ≤ θ) :
    Near (add (mul (fin σ) (fin c)) (mul (mul (fin s) (fin a)) (fin b))) (κ * c + k * a * b) θ := by
  have t0 : 0 ≤ t := (abs_nonneg a).trans ha
  have e0 : 0 ≤ e := le_trans (by positivity) h
  have f0 : 0 ≤ f := le_trans (by positivity) hσ
  have p1 := pair_near hσ hκ hc (by norm_num) hf le_rfl
  have p2 := triple_near h hk ha hb ht (hs.trans (by norm_num)) (by norm_num) he le_rfl
  refine Near.sum p1 p2 (M := 3) ?_ (by linarith [show (100 : ℝ) ≤ 2 ^ 100 by norm_num]) (by linarith)
  refine (abs_add_le _ _).trans ?_
  have q1 : |κ * c| ≤ 1 := by
    rw [abs_mul]
    exact (mul_le_mul_of_nonneg_left hc (abs_nonneg _)).trans hκ
  have q2 : |k * a * b| ≤ 2 := by
    rw [mul_assoc, abs_mul]
    exact (mul_le_mul_of_nonneg_left (abs_mul_le_sq ha hb) (abs_nonneg _)).trans hk
  linarith

/-- A diagonal factor of the translation. -/
theorem dtrans_near {d k σ κ a t g f : ℝ} (h : |d - k| * t ^ 2 ≤ g) (hk : |k| * t ^ 2 ≤ 2) (ha : |a| ≤ t) (ht : t ≤ 65536)
    (hd : |d| ≤ 2 ^ 60) (hg : g ≤ 1) (rσ : Rep σ) (hσ : |σ - κ| ≤ f) (hκ : |κ| ≤ 1) (hf : f ≤ 1) {θ : ℝ}
    (hθ : f + g + 7.2 / 16777216 + 4 / 16777216 * (f + g) ≤ θ) :
    Near (add (fin σ) (mul (mul (fin d) (fin a)) (fin a))) (κ + k * a * a) θ := by
  have t0 : 0 ≤ t := (abs_nonneg a).trans ha
  have g0 : 0 ≤ g := le_trans (by positivity) h
  have f0 : 0 ≤ f := le_trans (by positivity) hσ
  have p1 : Near (fin σ) κ f := ⟨σ, rfl, rσ, hσ⟩
  have p2 := triple_near h hk ha ha ht hd (by norm_num) hg le_rfl
  refine Near.sum p1 p2 (M := 3) ?_ (by linarith [show (100 : ℝ) ≤ 2 ^ 100 by norm_num]) (by linarith)
  refine (abs_add_le _ _).trans ?_
  have q2 : |k * a * a| ≤ 2 := by
    rw [mul_assoc, abs_mul]
    exact (mul_le_mul_of_nonneg_left (abs_mul_le_sq ha ha) (abs_nonneg _)).trans hk
  linarith

/-- Another factor of the translation. -/
theorem otrans_near {d k σ κ a b c t g f : ℝ} (h : |d - k| * t ^ 2 ≤ g) (hk : |k| * t ^ 2 ≤ 2) (ha : |a| ≤ t) (hb : |b| ≤ t)
    (hc : |c| ≤ t) (ht : t ≤ 65536) (hd : |d| ≤ 2 ^ 60) (hg : g ≤ 1) (hσ : |σ - κ| * t ≤ f) (hκ : |κ| * t ≤ 1)
    (hf : f ≤ 1) {θ : ℝ} (hθ : f + g + 8.2 / 16777216 + 4 / 16777216 * (f + g) ≤ θ) :
    Near (add (mul (fin σ) (fin c)) (mul (mul (fin d) (fin a)) (fin b))) (κ * c + k * a * b) θ := by
  have t0 : 0 ≤ t := (abs_nonneg a).trans ha
  have g0 : 0 ≤ g := le_trans (by positivity) h
  have f0 : 0 ≤ f := le_trans (by positivity) hσ
  have p1 := pair_near hσ hκ hc (by norm_num) hf le_rfl
  have p2 := triple_near h hk ha hb ht hd (by norm_num) hg le_rfl
  refine Near.sum p1 p2 (M := 3) ?_ (by linarith [show (100 : ℝ) ≤ 2 ^ 100 by norm_num]) (by linarith)
  refine (abs_add_le _ _).trans ?_
  have q1 : |κ * c| ≤ 1 := by
    rw [abs_mul]
    exact (mul_le_mul_of_nonneg_left hc (abs_nonneg _)).trans hκ
  have q2 : |k * a * b| ≤ 2 := by
    rw [mul_assoc, abs_mul]
    exact (mul_le_mul_of_nonneg_left (abs_mul_le_sq ha hb) (abs_nonneg _)).trans hk
  linarith

/-- A factor times a velocity. -/
theorem term_near {f : F32} {J v V δ : ℝ} (h : Near f J δ) (hJ : |J| ≤ 3) (hv : |v| ≤ V) (hV : V ≤ 2 ^ 60) (hδ : δ ≤ 2) {θ : ℝ}
    (hθ : δ * V + (1 / 16777216 * (3 * V + δ * V) + 1 / 10 ^ 25) ≤ θ) : Near (mul f (fin v)) (J * v) θ := by
  obtain ⟨s, rfl, -, h2⟩ := h
  have V0 : 0 ≤ V := (abs_nonneg v).trans hv
  have δ0 : 0 ≤ δ := (abs_nonneg _).trans h2
  have m1 : δ * V ≤ 2 * 2 ^ 60 := mul_le_mul hδ hV V0 (by norm_num)
  refine Near.rounded (ε := δ * V) (M := 3 * V) ?_ ?_ ?_ hθ
  · rw [← sub_mul, abs_mul]
    exact mul_le_mul h2 hv (abs_nonneg _) δ0
  · rw [abs_mul]
    exact mul_le_mul hJ hv (abs_nonneg _) (by norm_num)
  · norm_num at m1 hV ⊢
    linarith

/-- A coordinate of the translation. -/
theorem row_near {f g h : F32} {J K L x y z V δ : ℝ} (hf : Near f J δ) (hg : Near g K δ) (hh : Near h L δ)
    (hJ : |J| ≤ 3) (hK : |K| ≤ 3) (hL : |L| ≤ 3) (hx : |x| ≤ V) (hy : |y| ≤ V) (hz : |z| ≤ V) (hV : V ≤ 2 ^ 60) (hδ : δ ≤ 2)
    {θ : ℝ} (hθ : 3 * (δ * V) + 9 / 16777216 * (δ * V) + 24.1 / 16777216 * V + 1 / 10 ^ 24 ≤ θ) :
    Near (add (add (mul f (fin x)) (mul g (fin y))) (mul h (fin z))) (J * x + K * y + L * z) θ := by
  have V0 : 0 ≤ V := (abs_nonneg x).trans hx
  have δ0 : 0 ≤ δ := by
    obtain ⟨s, -, -, h2⟩ := hf
    exact (abs_nonneg _).trans h2
  have m0 : 0 ≤ δ * V := by positivity
  have m1 : δ * V ≤ 2 * 2 ^ 60 := mul_le_mul hδ hV V0 (by norm_num)
  have b1 : |J * x| ≤ 3 * V := by rw [abs_mul]; exact mul_le_mul hJ hx (abs_nonneg _) (by norm_num)
  have b2 : |K * y| ≤ 3 * V := by rw [abs_mul]; exact mul_le_mul hK hy (abs_nonneg _) (by norm_num)
  have b3 : |L * z| ≤ 3 * V := by rw [abs_mul]; exact mul_le_mul hL hz (abs_nonneg _) (by norm_num)
  have p1 := term_near hf hJ hx hV hδ le_rfl
  have p2 := term_near hg hK hy hV hδ le_rfl
  have p3 := term_near hh hL hz hV hδ le_rfl
  have b4 := abs_add_le (J * x) (K * y)
  have b5 := abs_add_le (J * x + K * y) (L * z)
  generalize δ * V = D at *
  norm_num at m1 hV
  have p4 := Near.sum p1 p2 (M := 6 * V) (by linarith) (by norm_num; linarith) le_rfl
  exact Near.sum p4 p3 (M := 9 * V) (by linarith) (by norm_num; linarith) (by linarith)

end AlMath.F32
