import Verif.Lemmas.Rot

/-! Every proper rotation comes from a unit quaternion. -/

namespace AlMath

open Spec

/-- From a non-negative rank-one symmetric table `K = 4 q qᵀ` with positive pivot,
recover `q`. -/
theorem quat_pivot {k0 k1 k2 k3 : ℝ} (h0 : 0 < k0) :
    ∃ p0 p1 p2 p3 : ℝ, 4 * p0 * p0 = k0 ∧ 4 * p0 * p1 = k1 ∧ 4 * p0 * p2 = k2 ∧
      4 * p0 * p3 = k3 ∧ p0 ≠ 0 := by
  have hs : 0 < √k0 := Real.sqrt_pos.2 h0
  have hss : √k0 * √k0 = k0 := Real.mul_self_sqrt h0.le
  refine ⟨√k0 / 2, k1 / (2 * √k0), k2 / (2 * √k0), k3 / (2 * √k0), ?_, ?_, ?_, ?_, by positivity⟩
  · linarith
  · field_simp; norm_num
  · field_simp; norm_num
  · field_simp; norm_num

theorem quat_prod {p u v A K ku kv : ℝ} (hp : p ≠ 0) (e0 : 4 * p * p = A) (eu : 4 * p * u = ku)
    (ev : 4 * p * v = kv) (id : ku * kv = A * K) : 4 * u * v = K := by
  apply mul_left_cancel₀ (mul_ne_zero hp hp)
  subst e0 eu ev
  linear_combination id / 4

/-- Surjectivity of unit quaternions onto proper rotations, with `w ≥ 0`. -/
theorem quat_of_rot {a b c d e f g h i : ℝ} (q : RotEqs a b c d e f g h i) :
    ∃ w x y z : ℝ, 0 ≤ w ∧ w * w + x * x + y * y + z * z = 1 ∧
      a = 1 - 2 * (y ^ 2 + z ^ 2) ∧ b = 2 * (x * y - z * w) ∧ c = 2 * (x * z + y * w) ∧
      d = 2 * (x * y + z * w) ∧ e = 1 - 2 * (x ^ 2 + z ^ 2) ∧ f = 2 * (y * z - x * w) ∧
      g = 2 * (x * z - y * w) ∧ h = 2 * (y * z + x * w) ∧ i = 1 - 2 * (x ^ 2 + y ^ 2) := by
  -- it is enough to find the quaternion without the sign condition
  suffices hsuff : ∃ w x y z : ℝ, w * w + x * x + y * y + z * z = 1 ∧
      a = 1 - 2 * (y ^ 2 + z ^ 2) ∧ b = 2 * (x * y - z * w) ∧ c = 2 * (x * z + y * w) ∧
      d = 2 * (x * y + z * w) ∧ e = 1 - 2 * (x ^ 2 + z ^ 2) ∧ f = 2 * (y * z - x * w) ∧
      g = 2 * (x * z - y * w) ∧ h = 2 * (y * z + x * w) ∧ i = 1 - 2 * (x ^ 2 + y ^ 2) by
    obtain ⟨w, x, y, z, h0, h1, h2, h3, h4, h5, h6, h7, h8, h9⟩ := hsuff
    rcases le_total 0 w with hw | hw
    · exact ⟨w, x, y, z, hw, h0, h1, h2, h3, h4, h5, h6, h7, h8, h9⟩
    · refine ⟨-w, -x, -y, -z, by linarith, ?_, ?_, ?_, ?_, ?_, ?_, ?_, ?_, ?_, ?_⟩ <;> linarith
  have q' := q
  obtain ⟨⟩ := q'
  have hsum : (1 + a + e + i) + (1 + a - e - i) + (1 + e - a - i) + (1 + i - a - e) = 4 := by ring
  by_cases hA : 0 < 1 + a + e + i
  · obtain ⟨w, x, y, z, e0, e1, e2, e3, hw⟩ :=
      quat_pivot (k1 := h - f) (k2 := c - g) (k3 := d - b) hA
    have hxx : 4 * x * x = 1 + a - e - i := quat_prod hw e0 e1 e1 (by linarith)
    have hyy : 4 * y * y = 1 + e - a - i := quat_prod hw e0 e2 e2 (by linarith)
    have hzz : 4 * z * z = 1 + i - a - e := quat_prod hw e0 e3 e3 (by linarith)
    have hxy : 4 * x * y = b + d := quat_prod hw e0 e1 e2 (by linarith)
    have hxz : 4 * x * z = c + g := quat_prod hw e0 e1 e3 (by linarith)
    have hyz : 4 * y * z = f + h := quat_prod hw e0 e2 e3 (by linarith)
    refine ⟨w, x, y, z, ?_, ?_, ?_, ?_, ?_, ?_, ?_, ?_, ?_, ?_⟩ <;> linarith
  by_cases hB : 0 < 1 + a - e - i
  · obtain ⟨x, w, y, z, e0, e1, e2, e3, hx⟩ :=
      quat_pivot (k1 := h - f) (k2 := b + d) (k3 := c + g) hB
    have hww : 4 * w * w = 1 + a + e + i := quat_prod hx e0 e1 e1 (by linarith)
    have hyy : 4 * y * y = 1 + e - a - i := quat_prod hx e0 e2 e2 (by linarith)
    have hzz : 4 * z * z = 1 + i - a - e := quat_prod hx e0 e3 e3 (by linarith)
    have hwy : 4 * w * y = c - g := quat_prod hx e0 e1 e2 (by linarith)
    have hwz : 4 * w * z = d - b := quat_prod hx e0 e1 e3 (by linarith)
    have hyz : 4 * y * z = f + h := quat_prod hx e0 e2 e3 (by linarith)
    refine ⟨w, x, y, z, ?_, ?_, ?_, ?_, ?_, ?_, ?_, ?_, ?_, ?_⟩ <;> linarith
  by_cases hC : 0 < 1 + e - a - i
  · obtain ⟨y, w, x, z, e0, e1, e2, e3, hy⟩ :=
      quat_pivot (k1 := c - g) (k2 := b + d) (k3 := f + h) hC
    have hww : 4 * w * w = 1 + a + e + i := quat_prod hy e0 e1 e1 (by linarith)
    have hxx : 4 * x * x = 1 + a - e - i := quat_prod hy e0 e2 e2 (by linarith)
    have hzz : 4 * z * z = 1 + i - a - e := quat_prod hy e0 e3 e3 (by linarith)
    have hwx : 4 * w * x = h - f := quat_prod hy e0 e1 e2 (by linarith)
    have hwz : 4 * w * z = d - b := quat_prod hy e0 e1 e3 (by linarith)
    have hxz : 4 * x * z = c + g := quat_prod hy e0 e2 e3 (by linarith)
    refine ⟨w, x, y, z, ?_, ?_, ?_, ?_, ?_, ?_, ?_, ?_, ?_, ?_⟩ <;> linarith
  have hD : 0 < 1 + i - a - e := by linarith
  obtain ⟨z, w, x, y, e0, e1, e2, e3, hz⟩ :=
      quat_pivot (k1 := d - b) (k2 := c + g) (k3 := f + h) hD
  have hww : 4 * w * w = 1 + a + e + i := quat_prod hz e0 e1 e1 (by linarith)
  have hxx : 4 * x * x = 1 + a - e - i := quat_prod hz e0 e2 e2 (by linarith)
  have hyy : 4 * y * y = 1 + e - a - i := quat_prod hz e0 e3 e3 (by linarith)
  have hwx : 4 * w * x = h - f := quat_prod hz e0 e1 e2 (by linarith)
  have hwy : 4 * w * y = c - g := quat_prod hz e0 e1 e3 (by linarith)
  have hxy : 4 * x * y = b + d := quat_prod hz e0 e2 e3 (by linarith)
  refine ⟨w, x, y, z, ?_, ?_, ?_, ?_, ?_, ?_, ?_, ?_, ?_, ?_⟩ <;> linarith

end AlMath
