import Verif.Model.FloatBasis
import Verif.Props.C23
import Verif.Props.C87
import Verif.Props.C88

/-!
C108: bases from axes, `orthogonalSpace` and pills in single precision.
-/

namespace AlMath.F32

open AlMath.Spec Matrix

/-- The matrix with three given columns. Not in /repo: specification. -/
def ofCols (x y z : Vec3) : Mat3 := !![x 0, y 0, z 0; x 1, y 1, z 1; x 2, y 2, z 2]

theorem colv_ofCols (x y z : Vec3) : colv (ofCols x y z) 0 = x ∧ colv (ofCols x y z) 1 = y ∧ colv (ofCols x y z) 2 = z := by
  refine ⟨?_, ?_, ?_⟩ <;> ext i <;> fin_cases i <;> rfl

theorem ofMat_ofCols (x y z : Vec3) : Rotation.ofMat (ofCols x y z) =
    ⟨fin (x 0), fin (y 0), fin (z 0), fin (x 1), fin (y 1), fin (z 1), fin (x 2), fin (y 2), fin (z 2)⟩ := rfl

theorem dot_self_vlen (v : Vec3) : v ⬝ᵥ v = vlen v ^ 2 := by
  rw [vlen_sq, dotProduct]
  simp only [pow_two]

theorem vlen_smul_abs (c : ℝ) (v : Vec3) : vlen (c • v) = |c| * vlen v := by
  rw [← vlen_smul _ (abs_nonneg c)]
  exact le_antisymm (vlen_mono fun i => by simp [abs_mul]) (vlen_mono fun i => by simp [abs_mul])

/-- The three cyclic orders of an orthonormal pair and its cross product. -/
theorem isRot_cols {p q : Vec3} (hp : vlen p = 1) (hq : vlen q = 1) (h : p ⬝ᵥ q = 0) :
    IsRot (ofCols p q (cross p q)) ∧ IsRot (ofCols (cross p q) p q) ∧ IsRot (ofCols q (cross p q) p) := by
  have hpp : p ⬝ᵥ p = 1 := by rw [dot_self_vlen, hp, one_pow]
  have hqq : q ⬝ᵥ q = 1 := by rw [dot_self_vlen, hq, one_pow]
  obtain ⟨-, k⟩ := C62_axes ⟨p 0, p 1, p 2⟩ ⟨q 0, q 1, q 2⟩ ⟨0, 0, 0⟩
  obtain ⟨-, k'⟩ := C62_axes ⟨q 0, q 1, q 2⟩ ⟨p 0, p 1, p 2⟩ ⟨0, 0, 0⟩
  have e : ∀ v : Vec3, Position3D.vec ⟨v 0, v 1, v 2⟩ = v := fun v => by
    ext i; fin_cases i <;> rfl
  rw [e, e] at k k'
  obtain ⟨⟨k1, -⟩, -, k3, -⟩ := k ⟨hpp, hqq, h⟩
  obtain ⟨-, ⟨k2, -⟩, -⟩ := k' ⟨hqq, hpp, by rw [dotProduct_comm]; exact h⟩
  exact ⟨k1, k3, k2⟩

/-- An orthonormal pair near two vectors that are almost of unit length and almost orthogonal. -/
theorem basis_near {v w : Vec3} {α β γ : ℝ} (hv : |vlen v - 1| ≤ α) (hw : |vlen w - 1| ≤ β) (hg : |v ⬝ᵥ w| ≤ γ)
    (hα : α ≤ 1 / 100) (hβ : β ≤ 1 / 100) (hγ : γ ≤ 1 / 100) :
    ∃ p q : Vec3, vlen p = 1 ∧ vlen q = 1 ∧ p ⬝ᵥ q = 0 ∧ vlen (v - p) ≤ α ∧ vlen (w - q) ≤ β + 33 / 32 * γ ∧
      vlen (cross v w - cross p q) ≤ α * (1 + β) + (β + 33 / 32 * γ) := by
  obtain ⟨hv1, hv2⟩ := abs_le.1 hv
  obtain ⟨hw1, hw2⟩ := abs_le.1 hw
  have hα0 : 0 ≤ α := (abs_nonneg _).trans hv
  have hβ0 : 0 ≤ β := (abs_nonneg _).trans hw
  have hγ0 : 0 ≤ γ := (abs_nonneg _).trans hg
  have hvp : 0 < vlen v := by linarith
  set p : Vec3 := (1 / vlen v) • v with hp
  have lp : vlen p = 1 := by
    rw [hp, vlen_smul _ (by positivity)]
    field_simp
  have hvp' : v = vlen v • p := by
    rw [hp, smul_smul]
    field_simp
    rw [one_smul]
  have d1 : vlen (v - p) ≤ α := by
    have : v - p = (vlen v - 1) • p := by rw [sub_smul, one_smul, ← hvp']
    rw [this, vlen_smul_abs _ p, lp, mul_one]
    exact hv
  set g : ℝ := p ⬝ᵥ w with hgd
  have hge : v ⬝ᵥ w = vlen v * g := by
    conv_lhs => rw [hvp']
    rw [smul_dotProduct, smul_eq_mul]
  have hg1 : |g| ≤ 100 / 99 * γ := by
    rw [hge, abs_mul, abs_of_pos hvp] at hg
    have : 99 / 100 * |g| ≤ vlen v * |g| := mul_le_mul_of_nonneg_right (by linarith) (abs_nonneg _)
    linarith
  have hpp : p ⬝ᵥ p = 1 := by rw [dot_self_vlen, lp, one_pow]
  set r : Vec3 := w - g • p with hr
  have hpr : p ⬝ᵥ r = 0 := by
    rw [hr, dotProduct_sub, dotProduct_smul, hpp, ← hgd, smul_eq_mul]
    ring
  have hr2 : vlen r ^ 2 = vlen w ^ 2 - g ^ 2 := by
    rw [← dot_self_vlen, ← dot_self_vlen, hr]
    simp only [sub_dotProduct, dotProduct_sub, smul_dotProduct, dotProduct_smul, smul_eq_mul, hpp]
    rw [dotProduct_comm w p, ← hgd]
    ring
  have hr0 := vlen_nonneg r
  have hg2 : g ^ 2 ≤ 1 / 96 * γ := by
    rw [← sq_abs]
    nlinarith [abs_nonneg g]
  have hg3 : 0 ≤ g ^ 2 := sq_nonneg g
  have hru : vlen r ≤ 1 + β := by
    refine sq_le_of (by linarith) ?_
    nlinarith
  have hrl : 1 - β - g ^ 2 ≤ vlen r := by
    by_contra hc
    have hc' := lt_of_not_ge hc
    have : vlen r ^ 2 ≤ (1 - β - g ^ 2) ^ 2 := by gcongr
    have : (1 - β) ^ 2 ≤ vlen w ^ 2 := by
      have : 0 ≤ 1 - β := by linarith
      gcongr
      linarith
    nlinarith
  have hrp : 0 < vlen r := by nlinarith
  set q : Vec3 := (1 / vlen r) • r with hq
  have lq : vlen q = 1 := by
    rw [hq, vlen_smul _ (by positivity)]
    field_simp
  have hrq : r = vlen r • q := by
    rw [hq, smul_smul]
    field_simp
    rw [one_smul]
  have d2 : vlen (w - q) ≤ β + 33 / 32 * γ := by
    have e : w - q = g • p + (vlen r - 1) • q := by
      rw [sub_smul, one_smul, ← hrq, hr]
      abel
    rw [e]
    refine (vlen_add _ _).trans ?_
    rw [vlen_smul_abs g p, vlen_smul_abs _ q, lp, lq]
    have : |vlen r - 1| ≤ β + 1 / 96 * γ := by
      rw [abs_le]
      constructor <;> linarith
    linarith
  refine ⟨p, q, lp, lq, ?_, d1, d2, ?_⟩
  · rw [hq, dotProduct_smul, hpr, smul_zero]
  · rw [cross_sub]
    refine (vlen_add _ _).trans (add_le_add ((vlen_cross _ _).trans ?_) ((vlen_cross _ _).trans ?_))
    · exact mul_le_mul d1 (by linarith) (vlen_nonneg _) hα0
    · rw [lp, one_mul]
      exact d2

/-- The distance of two matrices, column by column. -/
theorem fro_sub_cols (x y z x' y' z' : Vec3) :
    fro (ofCols x y z - ofCols x' y' z') ≤ vlen (x - x') + vlen (y - y') + vlen (z - z') := by
  have h0 := vlen_nonneg (x - x')
  have h1 := vlen_nonneg (y - y')
  have h2 := vlen_nonneg (z - z')
  refine sq_le_of (by linarith) ?_
  have e0 : colv (ofCols x y z - ofCols x' y' z') 0 = x - x' := by ext i; fin_cases i <;> rfl
  have e1 : colv (ofCols x y z - ofCols x' y' z') 1 = y - y' := by ext i; fin_cases i <;> rfl
  have e2 : colv (ofCols x y z - ofCols x' y' z') 2 = z - z' := by ext i; fin_cases i <;> rfl
  rw [fro_cols, e0, e1, e2]
  nlinarith [mul_nonneg h0 h1, mul_nonneg h0 h2, mul_nonneg h1 h2]

/-! ### The assertions -/

theorem unitEps_fin : ∃ ε, unitEps = fin ε ∧ |ε - 1 / 10000| ≤ 1 / 100000000 := lEpsilon_fin

theorem orthoEps_fin : ∃ ε, orthoEps = fin ε ∧ |ε - 1 / 1000| ≤ 1 / 100000000 := by
  have h : |(1 : ℝ) / 1000| ≤ 2 ^ 127 := by norm_num [abs_of_pos]
  refine ⟨rnd (1 / 1000), round_fin h, (rnd_gen _).trans ?_⟩
  have : (2 : ℝ) ^ (-150 : ℤ) ≤ 2 ^ (-30 : ℤ) := two_zpow_le (by norm_num)
  generalize (2 : ℝ) ^ (-150 : ℤ) = w at *
  rw [abs_of_pos (by norm_num), two_neg24]
  norm_num at this ⊢
  linarith

/-- What `isUnitVector` tells about a vector. -/
theorem unit_test {v : Vec3} (hu : vlen v ≤ 2 ^ 62) :
    (|vlen v - 1| ≤ 98 / 1000000 → (Position3D.ofVec v).isUnitVector unitEps) ∧
    ((Position3D.ofVec v).isUnitVector unitEps → |vlen v - 1| ≤ 102 / 1000000) := by
  obtain ⟨ε, hε, he⟩ := unitEps_fin
  obtain ⟨ε1, ε2⟩ := abs_le.1 he
  have t150 : (2 : ℝ) ^ (-150 : ℤ) ≤ 2 ^ (-40 : ℤ) := two_zpow_le (by norm_num)
  have p150 : (0 : ℝ) < 2 ^ (-150 : ℤ) := by positivity
  have t40 : (2 : ℝ) ^ (-40 : ℤ) ≤ 1 / 1000000000000 := by norm_num
  have key : ∀ n : ℝ, |1 - n| ≤ 2 ^ 127 → (le (abs (sub (fin 1) (fin n))) (fin ε) ↔ |rnd (1 - n)| ≤ ε) := by
    intro n hn
    rw [sub_fin hn, abs, le_iff_fin]
  rw [hε]
  rcases le_or_gt (2 ^ (-60 : ℤ)) (vlen v) with hl | hl
  · rw [← len_eq_vlen] at hl hu
    obtain ⟨n, hn, -, hne⟩ := C77_norm _ _ _ hl hu
    rw [len_eq_vlen] at hl hu hne
    have hn' : (Position3D.ofVec v).norm = fin n := hn
    have e20 : (2 : ℝ) ^ (-20 : ℤ) = 1 / 1048576 := by norm_num
    rw [e20] at hne
    obtain ⟨n1, n2⟩ := abs_le.1 hne
    have hL := vlen_nonneg v
    have hb : |1 - n| ≤ 2 ^ 127 := by
      rw [abs_le]
      constructor <;> norm_num at hu ⊢ <;> linarith
    have hr := rnd_gen (1 - n)
    rw [two_neg24] at hr
    rw [Position3D.isUnitVector, hn', key n hb]
    have ht := abs_sub_abs_le_abs_sub (rnd (1 - n)) (1 - n)
    have ht' := abs_sub_abs_le_abs_sub (1 - n) (rnd (1 - n))
    rw [abs_sub_comm (1 - n)] at ht'
    constructor
    · intro h
      obtain ⟨h1, h2⟩ := abs_le.1 h
      have : |1 - n| ≤ 999 / 10000000 := by
        rw [abs_le]
        constructor <;> linarith
      linarith
    · intro h
      have : |1 - n| ≤ 1001 / 10000000 := by linarith
      obtain ⟨h1, h2⟩ := abs_le.1 this
      rw [abs_le]
      constructor <;> linarith
  · replace hl : vlen v < 1 / 1000 := hl.trans_le (by norm_num)
    constructor
    · intro h
      have := (abs_le.1 h).1
      linarith
    · intro h
      exfalso
      obtain ⟨d, hd, hde⟩ := norm_dot hu
      have hn : (Position3D.ofVec v).norm = sqrt (fin d) := by rw [← hd]; rfl
      rw [Position3D.isUnitVector, hn, sqrt] at h
      split_ifs at h with h0
      · simp [sub, neg, add, abs, le, lt, eq] at h
      · have hL := vlen_nonneg v
        have t148 : (2 : ℝ) ^ (-148 : ℤ) ≤ 2 ^ (-40 : ℤ) := two_zpow_le (by norm_num)
        have hd1 : d ≤ 1 / 100 := by
          have h1 := (abs_le.1 hde).2
          have h2 : vlen v ^ 2 ≤ 1 / 1000000 := by
            have : vlen v ^ 2 ≤ (1 / 1000) ^ 2 := by gcongr
            linarith
          have e22 : (2 : ℝ) ^ (-22 : ℤ) * vlen v ^ 2 ≤ 1 * vlen v ^ 2 :=
            mul_le_mul_of_nonneg_right (by norm_num) (sq_nonneg _)
          have h3 := t148.trans t40
          generalize (2 : ℝ) ^ (-22 : ℤ) * vlen v ^ 2 = m at *
          generalize (2 : ℝ) ^ (-148 : ℤ) = k at *
          linarith
        have hs1 : Real.sqrt d ≤ 1 / 10 := by
          rw [show (1 / 10 : ℝ) = Real.sqrt ((1 / 10) ^ 2) by rw [Real.sqrt_sq (by norm_num)]]
          exact Real.sqrt_le_sqrt (by norm_num; linarith)
        have hs0 := Real.sqrt_nonneg d
        have hab : |Real.sqrt d| ≤ 2 ^ 127 := by
          rw [abs_of_nonneg hs0]
          exact hs1.trans (by norm_num)
        rw [round_fin hab] at h
        have hr := rnd_gen (Real.sqrt d)
        rw [two_neg24, abs_of_nonneg hs0] at hr
        obtain ⟨r1, r2⟩ := abs_le.1 hr
        have hn1 : |rnd (Real.sqrt d)| ≤ 1 / 5 := by
          rw [abs_le]
          constructor <;> linarith
        obtain ⟨m1, m2⟩ := abs_le.1 hn1
        have hb : |1 - rnd (Real.sqrt d)| ≤ 2 ^ 127 := by
          rw [abs_le]
          constructor <;> norm_num <;> linarith
        rw [key _ hb] at h
        have hr2 := rnd_gen (1 - rnd (Real.sqrt d))
        rw [two_neg24, abs_of_pos (by linarith : (0 : ℝ) < 1 - rnd (Real.sqrt d))] at hr2
        have := (abs_le.1 hr2).1
        have := (abs_le.1 h).2
        linarith

/-- What `isOrthogonal` tells about two vectors of about unit length. -/
theorem ortho_test {v w : Vec3} (hv : vlen v ≤ 101 / 100) (hw : vlen w ≤ 101 / 100) :
    (|v ⬝ᵥ w| ≤ 999 / 1000000 → (Position3D.ofVec v).isOrthogonal (Position3D.ofVec w) orthoEps) ∧
    ((Position3D.ofVec v).isOrthogonal (Position3D.ofVec w) orthoEps → |v ⬝ᵥ w| ≤ 1001 / 1000000) := by
  obtain ⟨ε, hε, he⟩ := orthoEps_fin
  obtain ⟨ε1, ε2⟩ := abs_le.1 he
  have hb : vlen v * vlen w ≤ 11 / 10 :=
    (mul_le_mul hv hw (vlen_nonneg _) (by norm_num)).trans (by norm_num)
  have h0 : 0 ≤ vlen v * vlen w := mul_nonneg (vlen_nonneg _) (vlen_nonneg _)
  obtain ⟨k1, k2⟩ := C82_isOrthogonal v w ε (hb.trans (by norm_num))
  have t148 : (2 : ℝ) ^ (-148 : ℤ) ≤ 2 ^ (-40 : ℤ) := two_zpow_le (by norm_num)
  have t40 : (2 : ℝ) ^ (-40 : ℤ) ≤ 1 / 1000000000000 := by norm_num
  have e22 : (2 : ℝ) ^ (-22 : ℤ) = 1 / 4194304 := by norm_num
  rw [e22] at k1 k2
  rw [hε]
  exact ⟨fun h => k1 (by linarith), fun h => (k2 h).trans (by linarith)⟩

/-- The cross product of two vectors of about unit length. -/
theorem cross_unit {v w : Vec3} (hv : vlen v ≤ 1001 / 1000) (hw : vlen w ≤ 1001 / 1000) :
    ∃ c : Vec3, (Position3D.ofVec v).crossProduct (Position3D.ofVec w) = Position3D.ofVec c ∧ (∀ i, Rep (c i)) ∧
      vlen (c - cross v w) ≤ 1 / 1000000 := by
  have hb : vlen v * vlen w ≤ 1003 / 1000 :=
    (mul_le_mul hv hw (vlen_nonneg _) (by norm_num)).trans (by norm_num)
  obtain ⟨c, ⟨h1, h2, h3⟩, hr, he⟩ := cross_float v w (hb.trans (by norm_num))
  refine ⟨c, ?_, hr, he.trans ?_⟩
  · simp only [Position3D.crossProduct, Position3D.ofVec, h1, h2, h3]
  · have t147 : (2 : ℝ) ^ (-147 : ℤ) ≤ 2 ^ (-40 : ℤ) := two_zpow_le (by norm_num)
    have t40 : (2 : ℝ) ^ (-40 : ℤ) ≤ 1 / 1000000000000 := by norm_num
    linarith

/-- Three vectors whose lengths are within `e` of one and whose mutual dot products are within `d` of zero.
Not in /repo: specification. -/
def AlmostOrthonormal (e d : ℝ) (x y z : Vec3) : Prop :=
  (|vlen x - 1| ≤ e ∧ |vlen y - 1| ≤ e ∧ |vlen z - 1| ≤ e) ∧ |x ⬝ᵥ y| ≤ d ∧ |x ⬝ᵥ z| ≤ d ∧ |y ⬝ᵥ z| ≤ d

/-- Three axes: the rotation has the given columns, unchanged. The assertions accept all triples that are
orthonormal within `98e-6` (lengths) and `999e-6` (dot products) and only triples that are orthonormal within
`102e-6` and `1001e-6`. -/
theorem C108_xyz (x y z : Vec3) (hx : vlen x ≤ 2 ^ 62) (hy : vlen y ≤ 2 ^ 62) (hz : vlen z ≤ 2 ^ 62) :
    (AlmostOrthonormal (98 / 1000000) (999 / 1000000) x y z →
      rotationFromAxesXYZ (Position3D.ofVec x) (Position3D.ofVec y) (Position3D.ofVec z) =
        .ok (Rotation.ofMat (ofCols x y z))) ∧
    (¬ AlmostOrthonormal (102 / 1000000) (1001 / 1000000) x y z →
      rotationFromAxesXYZ (Position3D.ofVec x) (Position3D.ofVec y) (Position3D.ofVec z) = .ub) := by
  have hl : ∀ {v : Vec3} {e : ℝ}, |vlen v - 1| ≤ e → e ≤ 1 / 100 → vlen v ≤ 101 / 100 := fun h h' => by
    have := (abs_le.1 h).2
    linarith
  constructor
  · rintro ⟨⟨h1, h2, h3⟩, h4, h5, h6⟩
    have l1 := hl h1 (by norm_num)
    have l2 := hl h2 (by norm_num)
    have l3 := hl h3 (by norm_num)
    rw [rotationFromAxesXYZ, if_pos ⟨(unit_test hx).1 h1, (unit_test hy).1 h2, (unit_test hz).1 h3,
      (ortho_test l1 l2).1 h4, (ortho_test l1 l3).1 h5, (ortho_test l2 l3).1 h6⟩]
    rfl
  · intro h
    rw [rotationFromAxesXYZ, if_neg]
    rintro ⟨h1, h2, h3, h4, h5, h6⟩
    have k1 := (unit_test hx).2 h1
    have k2 := (unit_test hy).2 h2
    have k3 := (unit_test hz).2 h3
    have l1 := hl k1 (by norm_num)
    have l2 := hl k2 (by norm_num)
    have l3 := hl k3 (by norm_num)
    exact h ⟨⟨k1, k2, k3⟩, (ortho_test l1 l2).2 h4, (ortho_test l1 l3).2 h5, (ortho_test l2 l3).2 h6⟩

/-- A vector given by coordinates. Helper of the proofs. Not in /repo: specification. -/
theorem vlen_coords (a b c : ℝ) : vlen ![a, b, c] = Real.sqrt (a ^ 2 + b ^ 2 + c ^ 2) := by
  rw [vlen, Fin.sum_univ_three]
  rfl

theorem vlen_unit_coords : vlen ![1, 0, 0] = 1 ∧ vlen ![0, 1, 0] = 1 ∧ vlen ![0, 0, 1] = 1 ∧ vlen ![0, 0, -1] = 1 := by
  simp only [vlen_coords]
  norm_num

/-- The coordinate axes are accepted. -/
example : rotationFromAxesXYZ ⟨fin 1, fin 0, fin 0⟩ ⟨fin 0, fin 1, fin 0⟩ ⟨fin 0, fin 0, fin 1⟩ =
    .ok (Rotation.ofMat (ofCols ![1, 0, 0] ![0, 1, 0] ![0, 0, 1])) := by
  obtain ⟨l1, l2, l3, -⟩ := vlen_unit_coords
  refine (C108_xyz ![1, 0, 0] ![0, 1, 0] ![0, 0, 1] ?_ ?_ ?_).1 ⟨⟨?_, ?_, ?_⟩, ?_, ?_, ?_⟩ <;> norm_num [l1, l2, l3]

/-- A vector that is too long is not. -/
example : rotationFromAxesXYZ ⟨fin 2, fin 0, fin 0⟩ ⟨fin 0, fin 1, fin 0⟩ ⟨fin 0, fin 0, fin 1⟩ = .ub := by
  obtain ⟨l1, l2, l3, -⟩ := vlen_unit_coords
  have l : vlen ![2, 0, 0] = 2 := by
    rw [vlen_coords, show (2 : ℝ) ^ 2 + 0 ^ 2 + 0 ^ 2 = 2 ^ 2 by ring, Real.sqrt_sq (by norm_num)]
  refine (C108_xyz ![2, 0, 0] ![0, 1, 0] ![0, 0, 1] ?_ ?_ ?_).2 fun h => ?_
  · rw [l]; norm_num
  · rw [l2]; norm_num
  · rw [l3]; norm_num
  · have := h.1.1
    rw [l] at this
    norm_num at this

/-- The handedness of the triple is not checked: a left-handed one gives a reflection. -/
theorem C108_reflection :
    ∃ A : Mat3, rotationFromAxesXYZ ⟨fin 1, fin 0, fin 0⟩ ⟨fin 0, fin 1, fin 0⟩ ⟨fin 0, fin 0, fin (-1)⟩ =
      .ok (Rotation.ofMat A) ∧ Aᵀ * A = 1 ∧ A.det = -1 := by
  obtain ⟨l1, l2, -, l4⟩ := vlen_unit_coords
  refine ⟨_, (C108_xyz ![1, 0, 0] ![0, 1, 0] ![0, 0, -1] ?_ ?_ ?_).1 ⟨⟨?_, ?_, ?_⟩, ?_, ?_, ?_⟩, ?_, ?_⟩
  · rw [l1]; norm_num
  · rw [l2]; norm_num
  · rw [l4]; norm_num
  · rw [l1]; norm_num
  · rw [l2]; norm_num
  · rw [l4]; norm_num
  · norm_num
  · norm_num
  · norm_num
  · ext i j
    fin_cases i <;> fin_cases j <;> simp [ofCols, Matrix.mul_apply, Fin.sum_univ_three]
  · rw [Matrix.det_fin_three]
    simp [ofCols]

theorem cross_self_dot (v w : Vec3) : v ⬝ᵥ cross v w = 0 ∧ w ⬝ᵥ cross v w = 0 := by
  constructor <;> simp only [dotProduct, cross, Fin.sum_univ_three, Matrix.cons_val_zero, Matrix.cons_val_one,
    Matrix.cons_val] <;> ring

theorem vlen_cross_sq (v w : Vec3) : vlen (cross v w) ^ 2 = vlen v ^ 2 * vlen w ^ 2 - (v ⬝ᵥ w) ^ 2 := by
  rw [vlen_sq, vlen_sq, vlen_sq]
  simp only [dotProduct, cross, Fin.sum_univ_three, Matrix.cons_val_zero, Matrix.cons_val_one, Matrix.cons_val]
  ring

/-- What the third axis looks like. -/
theorem third_axis {v w c : Vec3} (hv : |vlen v - 1| ≤ 45 / 1000000) (hw : |vlen w - 1| ≤ 45 / 1000000)
    (hg : |v ⬝ᵥ w| ≤ 990 / 1000000) (hc : vlen (c - cross v w) ≤ 1 / 1000000) :
    |vlen c - 1| ≤ 98 / 1000000 ∧ |v ⬝ᵥ c| ≤ 999 / 1000000 ∧ |w ⬝ᵥ c| ≤ 999 / 1000000 := by
  obtain ⟨v1, v2⟩ := abs_le.1 hv
  obtain ⟨w1, w2⟩ := abs_le.1 hw
  have hs := vlen_cross_sq v w
  have hc0 := vlen_nonneg (cross v w)
  have hg2 : (v ⬝ᵥ w) ^ 2 ≤ (990 / 1000000) ^ 2 := sq_le_sq' (abs_le.1 hg).1 (abs_le.1 hg).2
  have e : c = (c - cross v w) + cross v w := by abel
  have hp : (999955 / 1000000) * (999955 / 1000000) ≤ vlen v * vlen w :=
    mul_le_mul (by linarith) (by linarith) (by norm_num) (vlen_nonneg _)
  have hq : vlen v * vlen w ≤ (1000045 / 1000000) * (1000045 / 1000000) :=
    mul_le_mul (by linarith) (by linarith) (vlen_nonneg _) (by norm_num)
  have hu : vlen (cross v w) ≤ 1 + 91 / 1000000 := (vlen_cross v w).trans (hq.trans (by norm_num))
  have hl : 1 - 92 / 1000000 ≤ vlen (cross v w) := by
    refine sq_le_of hc0 ?_
    rw [hs, ← mul_pow]
    have : ((999955 / 1000000) * (999955 / 1000000)) ^ 2 ≤ (vlen v * vlen w) ^ 2 := by gcongr
    norm_num at this hg2 ⊢
    linarith
  have hd := abs_le.1 ((abs_vlen_sub c (cross v w)).trans hc)
  refine ⟨?_, ?_, ?_⟩
  · rw [abs_le]
    constructor <;> linarith [hd.1, hd.2]
  · rw [e, dotProduct_add, (cross_self_dot v w).1, add_zero]
    refine (abs_dot_le _ _).trans ((mul_le_mul (show vlen v ≤ 2 by linarith) hc (vlen_nonneg _) (by norm_num)).trans ?_)
    norm_num
  · rw [e, dotProduct_add, (cross_self_dot v w).2, add_zero]
    refine (abs_dot_le _ _).trans ((mul_le_mul (show vlen w ≤ 2 by linarith) hc (vlen_nonneg _) (by norm_num)).trans ?_)
    norm_num

/-- Two axes: for vectors whose lengths are within `45e-6` of one and whose dot product is at most `990e-6` no
assertion fails, the two given columns are unchanged and the third one is the cross product within `1e-6`. -/
theorem C108_two (v w : Vec3) (hv : |vlen v - 1| ≤ 45 / 1000000) (hw : |vlen w - 1| ≤ 45 / 1000000)
    (hg : |v ⬝ᵥ w| ≤ 990 / 1000000) :
    ∃ c : Vec3, vlen (c - cross v w) ≤ 1 / 1000000 ∧
      rotationFromAxesXY (Position3D.ofVec v) (Position3D.ofVec w) = .ok (Rotation.ofMat (ofCols v w c)) ∧
      rotationFromAxesXZ (Position3D.ofVec w) (Position3D.ofVec v) = .ok (Rotation.ofMat (ofCols w c v)) ∧
      rotationFromAxesYZ (Position3D.ofVec v) (Position3D.ofVec w) = .ok (Rotation.ofMat (ofCols c v w)) := by
  have v2 := (abs_le.1 hv).2
  have w2 := (abs_le.1 hw).2
  have hv62 : vlen v ≤ 2 ^ 62 := by norm_num; linarith
  have hw62 : vlen w ≤ 2 ^ 62 := by norm_num; linarith
  obtain ⟨c, hc, -, he⟩ := cross_unit (v := v) (w := w) (by linarith) (by linarith)
  obtain ⟨k1, k2, k3⟩ := third_axis hv hw hg he
  have hc62 : vlen c ≤ 2 ^ 62 := by
    have := (abs_le.1 k1).2
    norm_num
    linarith
  have hv' : |vlen v - 1| ≤ 98 / 1000000 := hv.trans (by norm_num)
  have hw' : |vlen w - 1| ≤ 98 / 1000000 := hw.trans (by norm_num)
  have hg' : |v ⬝ᵥ w| ≤ 999 / 1000000 := hg.trans (by norm_num)
  have hgc : |w ⬝ᵥ v| ≤ 999 / 1000000 := by rwa [dotProduct_comm]
  have k2' : |c ⬝ᵥ v| ≤ 999 / 1000000 := by rwa [dotProduct_comm]
  have k3' : |c ⬝ᵥ w| ≤ 999 / 1000000 := by rwa [dotProduct_comm]
  have u1 := (unit_test hv62).1 hv'
  have u2 := (unit_test hw62).1 hw'
  refine ⟨c, he, ?_, ?_, ?_⟩
  · rw [rotationFromAxesXY, if_pos ⟨u1, u2, (ortho_test (by linarith) (by linarith)).1 hg'⟩, hc]
    exact (C108_xyz v w c hv62 hw62 hc62).1 ⟨⟨hv', hw', k1⟩, hg', k2, k3⟩
  · rw [rotationFromAxesXZ, if_pos ⟨u2, u1, (ortho_test (by linarith) (by linarith)).1 hgc⟩, hc]
    exact (C108_xyz w c v hw62 hc62 hv62).1 ⟨⟨hw', k1, hv'⟩, k3, hgc, k2'⟩
  · rw [rotationFromAxesYZ, if_pos ⟨u1, u2, (ortho_test (by linarith) (by linarith)).1 hg'⟩, hc]
    exact (C108_xyz c v w hc62 hv62 hw62).1 ⟨⟨k1, hv', hw'⟩, k2', k3', hg'⟩

/-- The pair in the order of the cross product, the third axis and a rotation nearby. -/
theorem axes_pair_near {v w : Vec3} (hv62 : vlen v ≤ 2 ^ 62) (hw62 : vlen w ≤ 2 ^ 62)
    (h1 : (Position3D.ofVec v).isUnitVector unitEps) (h2 : (Position3D.ofVec w).isUnitVector unitEps)
    (h3 : |v ⬝ᵥ w| ≤ 1001 / 1000000) :
    ∃ c p q : Vec3, (Position3D.ofVec v).crossProduct (Position3D.ofVec w) = Position3D.ofVec c ∧
      (IsRot (ofCols p q (cross p q)) ∧ IsRot (ofCols (cross p q) p q) ∧ IsRot (ofCols q (cross p q) p)) ∧
      vlen (v - p) + vlen (w - q) + vlen (c - cross p q) ≤ 1 / 400 := by
  have k1 := (unit_test hv62).2 h1
  have k2 := (unit_test hw62).2 h2
  have l1 := (abs_le.1 k1).2
  have l2 := (abs_le.1 k2).2
  obtain ⟨c, hc, -, he⟩ := cross_unit (v := v) (w := w) (by linarith) (by linarith)
  obtain ⟨p, q, hp, hq, hpq, d1, d2, d3⟩ := basis_near k1 k2 h3 (by norm_num) (by norm_num) (by norm_num)
  refine ⟨c, p, q, hc, isRot_cols hp hq hpq, ?_⟩
  have := vlen_add (c - cross v w) (cross v w - cross p q)
  rw [sub_add_sub_cancel] at this
  norm_num at d1 d2 d3 ⊢
  linarith

/-- Two axes: whatever the assertions let through has the two given columns and is within `1/400` of a rotation. -/
theorem C108_near (v w : Vec3) (hv : vlen v ≤ 2 ^ 62) (hw : vlen w ≤ 2 ^ 62) (r : Rotation) :
    (rotationFromAxesXY (Position3D.ofVec v) (Position3D.ofVec w) = .ok r →
      ∃ c Q, r = Rotation.ofMat (ofCols v w c) ∧ IsRot Q ∧ fro (ofCols v w c - Q) ≤ 1 / 400) ∧
    (rotationFromAxesXZ (Position3D.ofVec v) (Position3D.ofVec w) = .ok r →
      ∃ c Q, r = Rotation.ofMat (ofCols v c w) ∧ IsRot Q ∧ fro (ofCols v c w - Q) ≤ 1 / 400) ∧
    (rotationFromAxesYZ (Position3D.ofVec v) (Position3D.ofVec w) = .ok r →
      ∃ c Q, r = Rotation.ofMat (ofCols c v w) ∧ IsRot Q ∧ fro (ofCols c v w - Q) ≤ 1 / 400) := by
  have key : ∀ {v w : Vec3}, vlen v ≤ 2 ^ 62 → vlen w ≤ 2 ^ 62 → (Position3D.ofVec v).isUnitVector unitEps →
      (Position3D.ofVec w).isUnitVector unitEps →
      (Position3D.ofVec v).isOrthogonal (Position3D.ofVec w) orthoEps → |v ⬝ᵥ w| ≤ 1001 / 1000000 := by
    intro v w hv hw h1 h2 h3
    have l1 := (abs_le.1 ((unit_test hv).2 h1)).2
    have l2 := (abs_le.1 ((unit_test hw).2 h2)).2
    exact (ortho_test (by linarith) (by linarith)).2 h3
  refine ⟨fun h => ?_, fun h => ?_, fun h => ?_⟩
  · rw [rotationFromAxesXY] at h
    split_ifs at h with h0
    obtain ⟨h1, h2, h3⟩ := h0
    obtain ⟨c, p, q, hc, ⟨k1, k2, k3⟩, he⟩ := axes_pair_near hv hw h1 h2 (key hv hw h1 h2 h3)
    rw [hc, rotationFromAxesXYZ] at h
    split_ifs at h
    exact ⟨c, _, (Res.ok.inj h).symm, k1, (fro_sub_cols _ _ _ _ _ _).trans he⟩
  · rw [rotationFromAxesXZ] at h
    split_ifs at h with h0
    obtain ⟨h1, h2, h3⟩ := h0
    obtain ⟨c, p, q, hc, ⟨k1, k2, k3⟩, he⟩ := axes_pair_near hw hv h2 h1 (by rw [dotProduct_comm]; exact key hv hw h1 h2 h3)
    rw [hc, rotationFromAxesXYZ] at h
    split_ifs at h
    exact ⟨c, _, (Res.ok.inj h).symm, k3, (fro_sub_cols _ _ _ _ _ _).trans (by linarith)⟩
  · rw [rotationFromAxesYZ] at h
    split_ifs at h with h0
    obtain ⟨h1, h2, h3⟩ := h0
    obtain ⟨c, p, q, hc, ⟨k1, k2, k3⟩, he⟩ := axes_pair_near hv hw h1 h2 (key hv hw h1 h2 h3)
    rw [hc, rotationFromAxesXYZ] at h
    split_ifs at h
    exact ⟨c, _, (Res.ok.inj h).symm, k2, (fro_sub_cols _ _ _ _ _ _).trans (by linarith)⟩

/-- Two axes at an angle that differs from a right one by half a thousandth: accepted, hence near a rotation. -/
example : ∃ r c Q, rotationFromAxesXY ⟨fin 1, fin 0, fin 0⟩ ⟨fin (1 / 2048), fin 1, fin 0⟩ = .ok r ∧
    r = Rotation.ofMat (ofCols ![1, 0, 0] ![1 / 2048, 1, 0] c) ∧ IsRot Q ∧
    fro (ofCols ![1, 0, 0] ![1 / 2048, 1, 0] c - Q) ≤ 1 / 400 := by
  have l1 := vlen_unit_coords.1
  have l2 : |vlen ![1 / 2048, 1, 0] - 1| ≤ 45 / 1000000 := by
    rw [vlen_coords, abs_le]
    have h1 : Real.sqrt ((1 / 2048) ^ 2 + 1 ^ 2 + 0 ^ 2) ≤ 1 + 1 / 1000000 := Real.sqrt_le_iff.2 ⟨by norm_num, by norm_num⟩
    have h2 : 1 ≤ Real.sqrt ((1 / 2048) ^ 2 + 1 ^ 2 + 0 ^ 2) := Real.le_sqrt_of_sq_le (by norm_num)
    constructor <;> linarith
  obtain ⟨c, -, h, -, -⟩ := C108_two ![1, 0, 0] ![1 / 2048, 1, 0] (by norm_num [l1]) l2 (by norm_num)
  obtain ⟨c', Q, h1, h2⟩ := (C108_near ![1, 0, 0] ![1 / 2048, 1, 0] (by norm_num [l1])
    (by have := (abs_le.1 l2).2; norm_num at this ⊢; linarith) _).1 h
  exact ⟨_, c', Q, h, h1, h2⟩

/-- The third axis is as long as the product of the lengths at most: when that product is below `1 - 105e-6` the
assertion on the third axis fails, though the two given axes may satisfy theirs. -/
theorem C108_short (v w : Vec3) (hv : vlen v ≤ 1001 / 1000) (hw : vlen w ≤ 1001 / 1000)
    (h : vlen v * vlen w ≤ 1 - 105 / 1000000) :
    rotationFromAxesXY (Position3D.ofVec v) (Position3D.ofVec w) = .ub ∧
    rotationFromAxesXZ (Position3D.ofVec w) (Position3D.ofVec v) = .ub ∧
    rotationFromAxesYZ (Position3D.ofVec v) (Position3D.ofVec w) = .ub := by
  obtain ⟨c, hc, -, he⟩ := cross_unit hv hw
  have hd := abs_le.1 ((abs_vlen_sub c (cross v w)).trans he)
  have hcv := vlen_cross v w
  have hv62 : vlen v ≤ 2 ^ 62 := by norm_num; linarith
  have hw62 : vlen w ≤ 2 ^ 62 := by norm_num; linarith
  have hc62 : vlen c ≤ 2 ^ 62 := by norm_num; linarith
  have hn : ¬ |vlen c - 1| ≤ 102 / 1000000 := fun h' => by linarith [(abs_le.1 h').1]
  refine ⟨?_, ?_, ?_⟩
  · rw [rotationFromAxesXY]
    split_ifs
    · rw [hc]
      exact (C108_xyz v w c hv62 hw62 hc62).2 fun h => hn h.1.2.2
    · rfl
  · rw [rotationFromAxesXZ]
    split_ifs
    · rw [hc]
      exact (C108_xyz w c v hw62 hc62 hv62).2 fun h => hn h.1.2.1
    · rfl
  · rw [rotationFromAxesYZ]
    split_ifs
    · rw [hc]
      exact (C108_xyz c v w hc62 hv62 hw62).2 fun h => hn h.1.1
    · rfl

/-- Two vectors of floats that satisfy all that the functions ask of their arguments, for which an assertion fails
all the same. -/
theorem C108_aborts : ∃ v w : Vec3, (∀ i, Rep (v i)) ∧ (∀ i, Rep (w i)) ∧
    (Position3D.ofVec v).isUnitVector unitEps ∧ (Position3D.ofVec w).isUnitVector unitEps ∧
    (Position3D.ofVec v).isOrthogonal (Position3D.ofVec w) orthoEps ∧
    rotationFromAxesXY (Position3D.ofVec v) (Position3D.ofVec w) = .ub ∧
    rotationFromAxesXZ (Position3D.ofVec w) (Position3D.ofVec v) = .ub ∧
    rotationFromAxesYZ (Position3D.ofVec v) (Position3D.ofVec w) = .ub := by
  have hr : Rep (1 - 3 / 32768) := ⟨32765, -15, by norm_num, by norm_num, by norm_num, by norm_num⟩
  have l1 : vlen ![1 - 3 / 32768, 0, 0] = 1 - 3 / 32768 := by
    rw [vlen_coords, show (1 - 3 / 32768 : ℝ) ^ 2 + 0 ^ 2 + 0 ^ 2 = (1 - 3 / 32768) ^ 2 by ring,
      Real.sqrt_sq (by norm_num)]
  have l2 : vlen ![0, 1 - 3 / 32768, 0] = 1 - 3 / 32768 := by
    rw [vlen_coords, show (0 : ℝ) ^ 2 + (1 - 3 / 32768) ^ 2 + 0 ^ 2 = (1 - 3 / 32768) ^ 2 by ring,
      Real.sqrt_sq (by norm_num)]
  refine ⟨![1 - 3 / 32768, 0, 0], ![0, 1 - 3 / 32768, 0], ?_, ?_, ?_, ?_, ?_, ?_⟩
  · intro i
    fin_cases i
    exacts [hr, Rep.zero, Rep.zero]
  · intro i
    fin_cases i
    exacts [Rep.zero, hr, Rep.zero]
  · refine (unit_test (by rw [l1]; norm_num)).1 ?_
    rw [l1, abs_le]
    constructor <;> norm_num
  · refine (unit_test (by rw [l2]; norm_num)).1 ?_
    rw [l2, abs_le]
    constructor <;> norm_num
  · refine (ortho_test (by rw [l1]; norm_num) (by rw [l2]; norm_num)).1 ?_
    norm_num
  · refine C108_short _ _ ?_ ?_ ?_
    · rw [l1]; norm_num
    · rw [l2]; norm_num
    · rw [l1, l2]; norm_num

/-! ### orthogonalSpace -/

/-- A normalised vector; the function `normalize` and the division by the norm are the same. -/
theorem normalize_vec {v : Vec3} (hl : 2 ^ (-60 : ℤ) ≤ vlen v) (hu : vlen v ≤ 2 ^ 62) :
    ∃ u : Vec3, (Position3D.ofVec v).normalize = .ok (Position3D.ofVec u) ∧
      (Position3D.ofVec v).div (Position3D.ofVec v).norm = .ok (Position3D.ofVec u) ∧ (∀ i, Rep (u i)) ∧
      (∀ i, |u i - v i / vlen v| ≤ 2 ^ (-19 : ℤ) * (|v i| / vlen v) + 2 ^ (-150 : ℤ)) ∧
      vlen (u - (1 / vlen v) • v) ≤ 2 / 1000000 ∧ |vlen u - 1| ≤ 2 / 1000000 := by
  have hp : 0 < vlen v := lt_of_lt_of_le (by positivity) hl
  have e := len_eq_vlen v
  obtain ⟨p, q, r, h, rp, rq, rr, k1, k2, k3⟩ := C77_normalize (v 0) (v 1) (v 2) (by rw [e]; exact hl) (by rw [e]; exact hu)
  rw [e] at k1 k2 k3
  have h' : (Position3D.ofVec v).normalize = .ok (Position3D.ofVec ![p, q, r]) := h
  have hk : ∀ i, |(![p, q, r] : Vec3) i - v i / vlen v| ≤ 2 ^ (-19 : ℤ) * (|v i| / vlen v) + 2 ^ (-150 : ℤ) := by
    intro i
    fin_cases i
    exacts [k1, k2, k3]
  have l1 : vlen ((1 / vlen v) • v) = 1 := by
    rw [vlen_smul _ (by positivity)]
    field_simp
  have hn : vlen (![p, q, r] - (1 / vlen v) • v) ≤ 2 / 1000000 := by
    refine (vlen_two (u := ![p, q, r]) (z := (1 / vlen v) • v) (δ := 2 ^ (-19 : ℤ)) (η := 2 ^ (-150 : ℤ)) (by positivity)
      (by positivity) fun i => ?_).trans ?_
    · rw [Pi.smul_apply, smul_eq_mul, abs_mul, abs_of_pos (by positivity : 0 < 1 / vlen v), one_div_mul_eq_div,
        one_div_mul_eq_div]
      exact hk i
    · rw [l1]
      have t : (2 : ℝ) ^ (-150 : ℤ) ≤ 2 ^ (-40 : ℤ) := two_zpow_le (by norm_num)
      have t40 : (2 : ℝ) ^ (-40 : ℤ) ≤ 1 / 1000000000000 := by norm_num
      have e19 : (2 : ℝ) ^ (-19 : ℤ) = 1 / 524288 := by norm_num
      rw [e19]
      linarith
  refine ⟨![p, q, r], h', ?_, ?_, hk, hn, ?_⟩
  · rw [Position3D.normalize] at h'
    split_ifs at h'
    exact h'
  · intro i
    fin_cases i
    exacts [rp, rq, rr]
  · have := abs_vlen_sub ![p, q, r] ((1 / vlen v) • v)
    rw [l1] at this
    linarith

/-- The auxiliary axis. -/
theorem aux_axis {a : Vec3} (ha : |vlen a - 1| ≤ 2 / 1000000) :
    ∃ u : Vec3, orthogonalSpaceAux (Position3D.ofVec a) = Position3D.ofVec u ∧ 99 / 1000000 ≤ vlen u ∧ vlen u ≤ 2 ∧
      (a ⬝ᵥ u = 0 ∨
        (|a 0| ≤ 10001 / 100000000 ∧ |a 1| ≤ 10001 / 100000000 ∧ |a ⬝ᵥ u| ≤ |a 0| * vlen u)) := by
  obtain ⟨ε, hε, he⟩ := lEpsilon_fin
  have hε' : round (1 / 10000) = fin ε := hε
  obtain ⟨ε1, ε2⟩ := abs_le.1 he
  obtain ⟨a1, a2⟩ := abs_le.1 ha
  have hs := vlen_sq a
  rw [Fin.sum_univ_three] at hs
  have hle : ∀ u : Vec3, vlen u ^ 2 ≤ vlen a ^ 2 → vlen u ≤ 2 := fun u h =>
    (sq_le_of (vlen_nonneg a) h).trans (by linarith)
  rw [orthogonalSpaceAux, hε']
  by_cases h1 : lt (fin ε) (abs (Position3D.ofVec a).x)
  · rw [if_pos h1]
    replace h1 : ε < |a 0| := h1
    refine ⟨![-a 1, a 0, 0], rfl, ?_, hle _ ?_, .inl ?_⟩
    · exact (show 99 / 1000000 ≤ |a 0| by linarith).trans (abs_le_vlen ![-a 1, a 0, 0] 1)
    · rw [vlen_sq, Fin.sum_univ_three]
      simp only [Matrix.cons_val_zero, Matrix.cons_val_one, Matrix.cons_val]
      nlinarith [sq_nonneg (a 2)]
    · simp only [dotProduct, Fin.sum_univ_three, Matrix.cons_val_zero, Matrix.cons_val_one, Matrix.cons_val]
      ring
  rw [if_neg h1]
  replace h1 : ¬ ε < |a 0| := h1
  by_cases h2 : lt (fin ε) (abs (Position3D.ofVec a).y)
  · rw [if_pos h2]
    replace h2 : ε < |a 1| := h2
    refine ⟨![0, -a 2, a 1], rfl, ?_, hle _ ?_, .inl ?_⟩
    · exact (show 99 / 1000000 ≤ |a 1| by linarith).trans (abs_le_vlen ![0, -a 2, a 1] 2)
    · rw [vlen_sq, Fin.sum_univ_three]
      simp only [Matrix.cons_val_zero, Matrix.cons_val_one, Matrix.cons_val]
      nlinarith [sq_nonneg (a 0)]
    · simp only [dotProduct, Fin.sum_univ_three, Matrix.cons_val_zero, Matrix.cons_val_one, Matrix.cons_val]
      ring
  · rw [if_neg h2]
    replace h2 : ¬ ε < |a 1| := h2
    rw [not_lt] at h1 h2
    have b0 : |a 0| ≤ 10001 / 100000000 := by linarith
    have b1 : |a 1| ≤ 10001 / 100000000 := by linarith
    have hl : vlen ![a 2, 0, 0] = |a 2| := by
      rw [vlen_coords, show a 2 ^ 2 + 0 ^ 2 + 0 ^ 2 = a 2 ^ 2 by ring, Real.sqrt_sq_eq_abs]
    refine ⟨![a 2, 0, 0], rfl, ?_, hle _ ?_, .inr ⟨b0, b1, ?_⟩⟩
    · rw [hl]
      refine sq_le_of (abs_nonneg _) ?_
      have c0 : a 0 ^ 2 ≤ (10001 / 100000000) ^ 2 := sq_le_sq' (abs_le.1 b0).1 (abs_le.1 b0).2
      have c1 : a 1 ^ 2 ≤ (10001 / 100000000) ^ 2 := sq_le_sq' (abs_le.1 b1).1 (abs_le.1 b1).2
      have c2 : (999998 / 1000000) ^ 2 ≤ vlen a ^ 2 := by
        gcongr
        linarith
      rw [sq_abs]
      norm_num at c0 c1 c2 ⊢
      linarith
    · rw [vlen_sq, Fin.sum_univ_three]
      simp only [Matrix.cons_val_zero, Matrix.cons_val_one, Matrix.cons_val]
      nlinarith [sq_nonneg (a 0), sq_nonneg (a 1)]
    · rw [hl, ← abs_mul]
      simp only [dotProduct, Fin.sum_univ_three, Matrix.cons_val_zero, Matrix.cons_val_one, Matrix.cons_val]
      rw [mul_zero, mul_zero, add_zero, add_zero]

/-- The second axis and a rotation nearby. -/
theorem second_axis {a b : Vec3} {γ : ℝ} (ha : |vlen a - 1| ≤ 2 / 1000000) (hb : |vlen b - 1| ≤ 2 / 1000000)
    (hg : |a ⬝ᵥ b| ≤ γ) (hγ : γ ≤ 1 / 1000) :
    ∃ c Q, ((Position3D.ofVec a).crossProduct (Position3D.ofVec b)).normalize = .ok (Position3D.ofVec c) ∧
      (∀ i, Rep (c i)) ∧ IsRot Q ∧ fro (ofCols b c a - Q) ≤ 17 / 1000000 + 99 / 32 * γ := by
  obtain ⟨a1, a2⟩ := abs_le.1 ha
  obtain ⟨b1, b2⟩ := abs_le.1 hb
  have hγ0 : 0 ≤ γ := (abs_nonneg _).trans hg
  obtain ⟨x, hx, -, hxe⟩ := cross_unit (v := a) (w := b) (by linarith) (by linarith)
  obtain ⟨p, q, hp, hq, hpq, d1, d2, d3⟩ := basis_near ha hb hg (by norm_num) (by norm_num) (by linarith)
  have hc1 : vlen (cross p q) = 1 := by
    have := (rot_cols (isRot_cols hp hq hpq).1).1 2
    rwa [(colv_ofCols _ _ _).2.2] at this
  have hd : vlen (x - (1 : ℝ) • cross p q) ≤ (51 / 10000000 + 33 / 32 * γ) * 1 := by
    have := vlen_add (x - cross a b) (cross a b - cross p q)
    rw [sub_add_sub_cancel] at this
    rw [one_smul]
    norm_num at d3 ⊢
    linarith
  obtain ⟨x0, x1, x2⟩ := direction_near one_pos hc1 hd (by linarith)
  obtain ⟨x3, x4⟩ := abs_le.1 x1
  have s60 : (2 : ℝ) ^ (-60 : ℤ) ≤ 1 / 2 := by norm_num
  obtain ⟨c, hc, -, hr, -, hce, -⟩ := normalize_vec (v := x) (s60.trans (by linarith)) (by norm_num; linarith)
  refine ⟨c, _, by rw [hx]; exact hc, hr, (isRot_cols hp hq hpq).2.2, (fro_sub_cols _ _ _ _ _ _).trans ?_⟩
  have := vlen_add (c - (1 / vlen x) • x) ((1 / vlen x) • x - cross p q)
  rw [sub_add_sub_cancel] at this
  linarith

/-- `orthogonalSpace` of a vector that is neither very short nor very long: the translation is kept, the third axis
is the unit vector of the given direction within `2e-6`, and the axes are those of a rotation within `340e-6`. They
are so within `24e-6` unless the direction is so close to the third coordinate axis that the third branch is taken
for a vector whose first coordinate is not null. -/
theorem C108_orthogonalSpace (v : Vec3) (hl : 2 ^ (-60 : ℤ) ≤ vlen v) (hu : vlen v ≤ 2 ^ 62) (t : Transform) :
    ∃ A Q, orthogonalSpace (Position3D.ofVec v) t = .ok { t with r := Rotation.ofMat A } ∧ (∀ i j, Rep (A i j)) ∧
      IsRot Q ∧ fro (A - Q) ≤ 340 / 1000000 ∧ vlen (A.col 2 - (1 / vlen v) • v) ≤ 2 / 1000000 ∧
      (v 0 = 0 ∨ 101 / 1000000 * vlen v ≤ |v 0| ∨ 101 / 1000000 * vlen v ≤ |v 1| → fro (A - Q) ≤ 24 / 1000000) := by
  have hp : 0 < vlen v := lt_of_lt_of_le (by positivity) hl
  obtain ⟨a, -, ha, har, hai, hae, hal⟩ := normalize_vec hl hu
  obtain ⟨u, hua, hul, huu, hud⟩ := aux_axis hal
  have hup : 0 < vlen u := by linarith
  have s60 : (2 : ℝ) ^ (-60 : ℤ) ≤ 1 / 100000 := by norm_num
  obtain ⟨b, hb, -, hbr, -, hbe, hbl⟩ := normalize_vec (v := u) (s60.trans (by linarith)) (huu.trans (by norm_num))
  have hab : |a ⬝ᵥ b| ≤ |a ⬝ᵥ u| / vlen u + 21 / 10000000 := by
    have e : b = (1 / vlen u) • u + (b - (1 / vlen u) • u) := by abel
    rw [e, dotProduct_add, dotProduct_smul, smul_eq_mul, one_div_mul_eq_div]
    refine (abs_add_le _ _).trans (add_le_add ?_ ?_)
    · rw [abs_div, abs_of_pos hup]
    · refine (abs_dot_le _ _).trans ((mul_le_mul (show vlen a ≤ 101 / 100 by linarith [(abs_le.1 hal).2]) hbe
        (vlen_nonneg _) (by norm_num)).trans ?_)
      norm_num
  have t150 : (2 : ℝ) ^ (-150 : ℤ) ≤ 2 ^ (-40 : ℤ) := two_zpow_le (by norm_num)
  have t40 : (2 : ℝ) ^ (-40 : ℤ) ≤ 1 / 1000000000000 := by norm_num
  have hbig : ∀ i, 101 / 1000000 * vlen v ≤ |v i| → ¬ |a i| ≤ 10001 / 100000000 := by
    intro i h h'
    have k := hai i
    have h2 : 101 / 1000000 ≤ |v i| / vlen v := by rwa [le_div_iff₀ hp]
    have h3 := abs_sub_abs_le_abs_sub (v i / vlen v) (a i)
    rw [abs_sub_comm, abs_div, abs_of_pos hp] at h3
    have e19 : (2 : ℝ) ^ (-19 : ℤ) = 1 / 524288 := by norm_num
    rw [e19] at k
    linarith
  -- the two cases
  obtain ⟨γ, hγ, hγ1, hγ2⟩ : ∃ γ, |a ⬝ᵥ b| ≤ γ ∧ γ ≤ 104 / 1000000 ∧
      (v 0 = 0 ∨ 101 / 1000000 * vlen v ≤ |v 0| ∨ 101 / 1000000 * vlen v ≤ |v 1| → γ ≤ 22 / 10000000) := by
    rcases hud with h | ⟨h0, h1, h⟩
    · rw [h, abs_zero, zero_div, zero_add] at hab
      exact ⟨_, hab, by norm_num, fun _ => by norm_num⟩
    · have h' : |a ⬝ᵥ u| / vlen u ≤ |a 0| := by rwa [div_le_iff₀ hup]
      refine ⟨|a 0| + 21 / 10000000, by linarith, by linarith, ?_⟩
      rintro (hv | hv | hv)
      · have k := hai 0
        rw [hv, abs_zero, zero_div, mul_zero, zero_add, sub_zero] at k
        replace k := k.trans (t150.trans t40)
        linarith
      · exact absurd h0 (hbig 0 hv)
      · exact absurd h1 (hbig 1 hv)
  obtain ⟨c, Q, hc, hcr, hQ, hf⟩ := second_axis hal hbl hγ (by linarith)
  refine ⟨ofCols b c a, Q, ?_, ?_, hQ, by linarith, ?_, fun h => ?_⟩
  · rw [orthogonalSpace, ha, Res.bind, hua, hb, Res.bind, hc]
    rfl
  · intro i j
    fin_cases i <;> fin_cases j
    exacts [hbr 0, hcr 0, har 0, hbr 1, hcr 1, har 1, hbr 2, hcr 2, har 2]
  · have : (ofCols b c a).col 2 = a := (colv_ofCols b c a).2.2
    rw [this]
    exact hae
  · linarith [hγ2 h]

theorem vlen_345 : vlen ![3, 4, 12] = 13 := by
  rw [vlen_coords, show (3 : ℝ) ^ 2 + 4 ^ 2 + 12 ^ 2 = 13 ^ 2 by norm_num, Real.sqrt_sq (by norm_num)]

/-- A vector that is not near the third axis. -/
example (t : Transform) : ∃ A Q, orthogonalSpace ⟨fin 3, fin 4, fin 12⟩ t = .ok { t with r := Rotation.ofMat A } ∧
    IsRot Q ∧ fro (A - Q) ≤ 24 / 1000000 := by
  obtain ⟨A, Q, h, -, hQ, -, -, hf⟩ := C108_orthogonalSpace ![3, 4, 12] (by rw [vlen_345]; norm_num)
    (by rw [vlen_345]; norm_num) t
  refine ⟨A, Q, h, hQ, hf (.inr (.inl ?_))⟩
  rw [vlen_345]
  norm_num

/-- A vector for which the third branch is taken. -/
example (t : Transform) : ∃ A Q, orthogonalSpace ⟨fin (1 / 16384), fin 0, fin 1⟩ t = .ok { t with r := Rotation.ofMat A } ∧
    IsRot Q ∧ fro (A - Q) ≤ 340 / 1000000 := by
  have h1 : vlen ![1 / 16384, 0, 1] ≤ 2 := by
    rw [vlen_coords]
    exact Real.sqrt_le_iff.2 ⟨by norm_num, by norm_num⟩
  have h2 : 1 ≤ vlen ![1 / 16384, 0, 1] := by
    rw [vlen_coords]
    exact Real.le_sqrt_of_sq_le (by norm_num)
  obtain ⟨A, Q, h, -, hQ, hf, -⟩ := C108_orthogonalSpace ![1 / 16384, 0, 1] (le_trans (by norm_num) h2)
    (h1.trans (by norm_num)) t
  exact ⟨A, Q, h, hQ, hf⟩

/-- Outside of that range the function throws: when the norm underflows, and also when it overflows. -/
theorem C108_orthogonalSpace_throws (v : Vec3) (t : Transform)
    (h : (∀ i, |v i| ≤ 2 ^ (-75 : ℤ)) ∨ ∃ i, 2 ^ 64 ≤ |v i|) :
    orthogonalSpace (Position3D.ofVec v) t = .throws := by
  rcases h with h | h
  · obtain ⟨h1, -⟩ := C77_underflow (v 0) (v 1) (v 2) (h 0) (h 1) (h 2)
    have h1' : (Position3D.ofVec v).norm = fin 0 := h1
    rw [orthogonalSpace, h1', Position3D.div, if_pos (by simp [eq])]
    rfl
  · have h' : 2 ^ 64 ≤ |v 0| ∨ 2 ^ 64 ≤ |v 1| ∨ 2 ^ 64 ≤ |v 2| := by
      obtain ⟨i, hi⟩ := h
      fin_cases i
      exacts [.inl hi, .inr (.inl hi), .inr (.inr hi)]
    obtain ⟨h1, h2⟩ := C77_overflow (v 0) (v 1) (v 2) h'
    have h1' : (Position3D.ofVec v).norm = pinf := h1
    have h2' : (Position3D.ofVec v).normalize = .ok ⟨fin 0, fin 0, fin 0⟩ := h2
    rw [Position3D.normalize, if_neg (by rw [h1']; simp [eq])] at h2'
    obtain ⟨ε, hε, he⟩ := lEpsilon_fin
    have hε' : round (1 / 10000) = fin ε := hε
    have hn : ¬ lt (fin ε) (abs (fin 0)) := by
      have := (abs_le.1 he).1
      simp only [abs, lt, abs_zero, not_lt]
      linarith
    obtain ⟨-, h4⟩ := C77_underflow 0 0 0 (by rw [abs_zero]; positivity) (by rw [abs_zero]; positivity)
      (by rw [abs_zero]; positivity)
    rw [orthogonalSpace, h2', Res.bind, orthogonalSpaceAux, hε', if_neg hn, if_neg hn, h4]
    rfl

/-! ### Pills -/

/-- The vector from one point to the middle of the segment, and the middle, as they are computed. -/
theorem half_delta {a b : Vec3} (ha : ∀ i, Rep (a i)) (hb : ∀ i, Rep (b i)) (hA : vlen a ≤ 2 ^ 59) (hB : vlen b ≤ 2 ^ 59) :
    ∃ e c : Vec3, ((Position3D.ofVec b).sub (Position3D.ofVec a)).smul (fin (1 / 2)) = Position3D.ofVec e ∧
      (Position3D.ofVec a).add (Position3D.ofVec e) = Position3D.ofVec c ∧ (∀ i, Grid (c i)) ∧
      (∀ i, e i = rnd (rnd (b i - a i) * (1 / 2))) ∧
      vlen (e - (1 / 2 : ℝ) • (b - a)) ≤ 12 / 100000000 * (vlen (b - a) / 2) + 2 * 2 ^ (-150 : ℤ) ∧
      vlen (c - (a + e)) ≤ 6 / 100000000 * vlen (a + e) := by
  have hd : ∀ i, |b i - a i| ≤ 2 ^ 60 := fun i => by
    have h1 := abs_le.1 ((abs_le_vlen a i).trans hA)
    have h2 := abs_le.1 ((abs_le_vlen b i).trans hB)
    rw [abs_le]
    constructor <;> norm_num at h1 h2 ⊢ <;> linarith [h1.1, h1.2, h2.1, h2.2]
  have hs : ∀ i, |rnd (b i - a i) - (b i - a i)| ≤ 2 ^ (-24 : ℤ) * |b i - a i| := fun i => by
    have := rnd_add (hb i).grid (ha i).neg.grid
    rwa [← sub_eq_add_neg] at this
  have hs2 : ∀ i, |rnd (b i - a i)| ≤ 2 ^ 61 := fun i => by
    have h1 := hs i
    rw [two_neg24] at h1
    have h2 := abs_sub_abs_le_abs_sub (rnd (b i - a i)) (b i - a i)
    have h3 := hd i
    have h4 := abs_nonneg (b i - a i)
    norm_num at h3 ⊢
    linarith
  have hh : ∀ i, |rnd (b i - a i) * (1 / 2)| ≤ 2 ^ 60 := fun i => by
    have h1 := hs2 i
    rw [abs_mul, abs_of_pos (by norm_num : (0 : ℝ) < 1 / 2)]
    norm_num at h1 ⊢
    linarith
  let e : Vec3 := fun i => rnd (rnd (b i - a i) * (1 / 2))
  have he1 : ∀ i, |e i - rnd (b i - a i) * (1 / 2)| ≤ 2 ^ (-24 : ℤ) * |rnd (b i - a i) * (1 / 2)| + 2 ^ (-150 : ℤ) :=
    fun i => rnd_gen _
  have he2 : ∀ i, |a i + e i| ≤ 2 ^ 127 := fun i => by
    have h1 := he1 i
    rw [two_neg24] at h1
    have h2 := abs_sub_abs_le_abs_sub (e i) (rnd (b i - a i) * (1 / 2))
    have h3 : |rnd (b i - a i) * (1 / 2)| ≤ 10 ^ 19 := (hh i).trans (by norm_num)
    have h4 : |a i| ≤ 10 ^ 19 := ((abs_le_vlen a i).trans hA).trans (by norm_num)
    have h5 := abs_nonneg (rnd (b i - a i) * (1 / 2))
    have t150 : (2 : ℝ) ^ (-150 : ℤ) ≤ 1 := (two_zpow_le (by norm_num : (-150 : ℤ) ≤ 0)).trans (by norm_num)
    generalize (2 : ℝ) ^ (-150 : ℤ) = k at *
    refine ((abs_add_le _ _).trans (show _ ≤ (10 : ℝ) ^ 20 from ?_)).trans (by norm_num)
    generalize |rnd (b i - a i) * (1 / 2)| = m at *
    linarith
  refine ⟨e, fun i => rnd (a i + e i), ?_, ?_, fun i => rnd_grid _, fun i => rfl, ?_, ?_⟩
  · have hs' : ∀ i, |b i - a i| ≤ 2 ^ 127 := fun i => (hd i).trans (by norm_num)
    have hh' : ∀ i, |rnd (b i - a i) * (1 / 2)| ≤ 2 ^ 127 := fun i => (hh i).trans (by norm_num)
    simp only [Position3D.sub, Position3D.smul, Position3D.ofVec, sub_fin (hs' _), mul_fin (hh' _), e]
  · simp only [Position3D.add, Position3D.ofVec, add_fin (he2 _)]
  · have := vlen_two (u := e) (z := (1 / 2 : ℝ) • (b - a)) (δ := 12 / 100000000) (η := 2 ^ (-150 : ℤ)) (by norm_num)
      (by positivity) fun i => ?_
    · rw [vlen_smul _ (by norm_num)] at this
      linarith
    · rw [Pi.smul_apply, Pi.sub_apply, smul_eq_mul, abs_mul, abs_of_pos (by norm_num : (0 : ℝ) < 1 / 2)]
      have h1 := he1 i
      have h2 := hs i
      rw [abs_mul, abs_of_pos (by norm_num : (0 : ℝ) < 1 / 2)] at h1
      rw [two_neg24] at h1 h2
      have h3 := abs_sub_abs_le_abs_sub (rnd (b i - a i)) (b i - a i)
      have h4 := abs_nonneg (b i - a i)
      have h5 : e i - 1 / 2 * (b i - a i) =
          (e i - rnd (b i - a i) * (1 / 2)) + 1 / 2 * (rnd (b i - a i) - (b i - a i)) := by ring
      rw [h5]
      refine (abs_add_le _ _).trans ?_
      rw [abs_mul, abs_of_pos (by norm_num : (0 : ℝ) < 1 / 2)]
      generalize (2 : ℝ) ^ (-150 : ℤ) = k at *
      linarith
  · refine vlen_rel (by norm_num) fun i => ?_
    refine (rnd_add (ha i).grid (rnd_grid _)).trans ?_
    rw [two_neg24]
    exact mul_le_mul_of_nonneg_right (by norm_num) (abs_nonneg _)

/-- Two points that are neither very close nor very far from each other and from the origin: the half extent, the
centre and the axis of the pill, and the centres of its spheres, which are the second and the first point, up to
rounding. -/
theorem C108_pill (a b : Vec3) (ha : ∀ i, Rep (a i)) (hb : ∀ i, Rep (b i)) (hl : 2 ^ (-58 : ℤ) ≤ vlen (b - a))
    (hA : vlen a ≤ 2 ^ 59) (hB : vlen b ≤ 2 ^ 59) :
    ∃ h A c, computePillParameters (Position3D.ofVec a) (Position3D.ofVec b) = .ok (fin h, Transform.ofMat A c) ∧
      |h - vlen (b - a) / 2| ≤ 2 / 1000000 * (vlen (b - a) / 2) ∧
      vlen (c - (1 / 2 : ℝ) • (a + b)) ≤
        1 / 10000000 * vlen ((1 / 2 : ℝ) • (a + b)) + 2 / 10000000 * (vlen (b - a) / 2) ∧
      vlen (A.col 2 - (1 / vlen (b - a)) • (b - a)) ≤ 3 / 1000000 ∧ (∃ Q, IsRot Q ∧ fro (A - Q) ≤ 340 / 1000000) ∧
      ∃ p q, getSphereCentersFromPill (fin h) (Transform.ofMat A c) = (Position3D.ofVec p, Position3D.ofVec q) ∧
        vlen (p - b) ≤ 7 / 1000000 * (vlen (b - a) / 2) + 2 / 10000000 * vlen ((1 / 2 : ℝ) • (a + b)) ∧
        vlen (q - a) ≤ 7 / 1000000 * (vlen (b - a) / 2) + 2 / 10000000 * vlen ((1 / 2 : ℝ) • (a + b)) := by
  have hDu : vlen (b - a) ≤ 2 ^ 60 := by
    have := vlen_add b (-a)
    rw [vlen_neg, ← sub_eq_add_neg] at this
    norm_num at hA hB ⊢
    linarith
  have hMu : vlen ((1 / 2 : ℝ) • (a + b)) ≤ 2 ^ 59 := by
    rw [vlen_smul _ (by norm_num)]
    have := vlen_add a b
    norm_num at hA hB ⊢
    linarith
  have hba : vlen (a - b) = vlen (b - a) := by rw [← vlen_neg, neg_sub]
  have hp : 0 < vlen (b - a) := lt_of_lt_of_le (by positivity) hl
  have t150 : (2 : ℝ) ^ (-150 : ℤ) ≤ 1 / 1000000000 * (vlen (b - a) / 2) := by
    have : (2 : ℝ) ^ (-150 : ℤ) ≤ 1 / 1000000000 * (2 ^ (-58 : ℤ) / 2) := by norm_num
    exact this.trans (by gcongr)
  have t146 : (2 : ℝ) ^ (-146 : ℤ) ≤ 1 / 1000000000 * (vlen (b - a) / 2) := by
    have : (2 : ℝ) ^ (-146 : ℤ) ≤ 1 / 1000000000 * (2 ^ (-58 : ℤ) / 2) := by norm_num
    exact this.trans (by gcongr)
  -- half extent
  obtain ⟨d, hd, -, hde⟩ := C82_distance a b ha hb
    (by rw [hba]; exact (two_zpow_le (by norm_num : (-59 : ℤ) ≤ -58)).trans hl)
    (by rw [hba]; exact hDu.trans (by norm_num))
  rw [hba, show (2 : ℝ) ^ (-19 : ℤ) = 1 / 524288 by norm_num] at hde
  obtain ⟨d1, d2⟩ := abs_le.1 hde
  have hd3 : |1 / 2 * d| ≤ 2 ^ 127 := by
    rw [abs_le]
    constructor <;> norm_num at hDu ⊢ <;> linarith
  have hh := rnd_gen (1 / 2 * d)
  rw [two_neg24, abs_of_pos (by linarith : 0 < 1 / 2 * d)] at hh
  obtain ⟨e, c, hed, hc, hcg, -, hee, hce⟩ := half_delta ha hb hA hB
  set D := vlen (b - a) / 2 with hD
  set M := vlen ((1 / 2 : ℝ) • (a + b)) with hM
  have hDp : 0 < D := by positivity
  have hM0 : 0 ≤ M := vlen_nonneg _
  set h := rnd (1 / 2 * d) with hhd
  have hhe : |h - D| ≤ 2 / 1000000 * D := by
    obtain ⟨h1, h2⟩ := abs_le.1 hh
    generalize (2 : ℝ) ^ (-150 : ℤ) = k at *
    rw [abs_le]
    constructor <;> linarith
  -- direction
  replace hee : vlen (e - (1 / 2 : ℝ) • (b - a)) ≤ 13 / 100000000 * D := by
    generalize (2 : ℝ) ^ (-150 : ℤ) = k at *
    linarith
  set u : Vec3 := (1 / vlen (b - a)) • (b - a) with hu
  have hu1 : vlen u = 1 := by
    rw [hu, vlen_smul _ (by positivity)]
    field_simp
  have hDu' : D • u = (1 / 2 : ℝ) • (b - a) := by
    rw [hu, smul_smul, hD]
    congr 1
    field_simp
  obtain ⟨e0, e1, e2⟩ := direction_near (v := e) hDp hu1 (by rw [hDu']; exact hee) (by norm_num)
  obtain ⟨e3, e4⟩ := abs_le.1 e1
  -- centre
  have hae : a + e = (1 / 2 : ℝ) • (a + b) + (e - (1 / 2 : ℝ) • (b - a)) := by
    ext i
    simp only [Pi.add_apply, Pi.sub_apply, Pi.smul_apply, smul_eq_mul]
    ring
  have hael : vlen (a + e) ≤ M + 13 / 100000000 * D := by
    rw [hae]
    exact (vlen_add _ _).trans (by linarith)
  have hcM : vlen (c - (1 / 2 : ℝ) • (a + b)) ≤ 6 / 100000000 * M + 14 / 100000000 * D := by
    have : c - (1 / 2 : ℝ) • (a + b) = (c - (a + e)) + (e - (1 / 2 : ℝ) • (b - a)) := by
      rw [hae]
      abel
    rw [this]
    refine (vlen_add _ _).trans ?_
    linarith
  have hcl : vlen c ≤ 2 * M + D := by
    have := vlen_add (c - (1 / 2 : ℝ) • (a + b)) ((1 / 2 : ℝ) • (a + b))
    rw [sub_add_cancel] at this
    linarith
  have hD59 : D ≤ 2 ^ 59 := by
    rw [hD]
    norm_num at hDu ⊢
    linarith
  obtain ⟨A, Q, hA1, -, hQ, hAQ, hAc, -⟩ := C108_orthogonalSpace e
    (by
      have h1 : (2 : ℝ) ^ (-60 : ℤ) ≤ 1 / 2 * (2 ^ (-58 : ℤ) / 2) := by norm_num
      have h2 : (2 : ℝ) ^ (-58 : ℤ) / 2 ≤ D := by rw [hD]; gcongr
      exact h1.trans ((mul_le_mul_of_nonneg_left h2 (by norm_num)).trans (by linarith)))
    (by norm_num at hD59 ⊢; linarith) (transformFromPosition3D (Position3D.ofVec c))
  have hcol : vlen (A.col 2 - u) ≤ 23 / 10000000 := by
    have := vlen_add (A.col 2 - (1 / vlen e) • e) ((1 / vlen e) • e - u)
    rw [sub_add_sub_cancel] at this
    linarith
  have hcol1 : vlen (A.col 2) ≤ 1001 / 1000 := by
    have := vlen_add (A.col 2 - u) u
    rw [sub_add_cancel] at this
    linarith
  have hAf : fro A ≤ 11 / 4 := by
    have := fro_add (A - Q) Q
    rw [sub_add_cancel] at this
    have := fro_rot_le hQ.1
    linarith
  have hpt : ∀ s : ℝ, |s| = 1 → ∃ p : Vec3, (Transform.ofMat A c).apply ⟨fin 0, fin 0, fin (s * h)⟩ = Position3D.ofVec p ∧
      vlen (p - ((1 / 2 : ℝ) • (a + b) + s • (1 / 2 : ℝ) • (b - a))) ≤ 7 / 1000000 * D + 2 / 10000000 * M := by
    intro s hs
    obtain ⟨h1, h2⟩ := abs_le.1 hhe
    have hvl : vlen ![0, 0, s * h] = |h| := by
      rw [vlen_coords, show (0 : ℝ) ^ 2 + 0 ^ 2 + (s * h) ^ 2 = (s * h) ^ 2 by ring, Real.sqrt_sq_eq_abs, abs_mul, hs,
        one_mul]
    have hhp : |h| ≤ 1000002 / 1000000 * D := by
      rw [abs_le]
      constructor <;> linarith
    obtain ⟨p, hp1, hp2⟩ := affine_ofVec (A := A) (v := ![0, 0, s * h]) (t := c) hAf
      (by rw [hvl]; norm_num at hD59 ⊢; linarith) (by norm_num at hD59 hMu ⊢; linarith) hcg
    rw [hvl, show (2 : ℝ) ^ (-19 : ℤ) = 1 / 524288 by norm_num, two_neg24] at hp2
    refine ⟨p, ?_, ?_⟩
    · have k0 := hp1 0
      have k1 := hp1 1
      have k2 := hp1 2
      simp only [Matrix.cons_val_zero, Matrix.cons_val_one, Matrix.cons_val] at k0 k1 k2
      simp only [Transform.apply, Transform.ofMat, Rotation.ofMat, Position3D.ofVec, k0, k1, k2]
    · have hAv : A *ᵥ ![0, 0, s * h] = (s * h) • A.col 2 := by
        ext i
        simp [Matrix.mulVec, dotProduct, Fin.sum_univ_three, Matrix.col, mul_comm]
      rw [hAv] at hp2
      have hx : vlen ((s * h) • A.col 2 - s • (1 / 2 : ℝ) • (b - a)) ≤ 431 / 100000000 * D := by
        rw [← hDu']
        have : (s * h) • A.col 2 - s • D • u = s • ((h - D) • A.col 2 + D • (A.col 2 - u)) := by
          ext i
          simp only [Pi.add_apply, Pi.sub_apply, Pi.smul_apply, smul_eq_mul]
          ring
        rw [this, vlen_smul_abs, hs, one_mul]
        refine (vlen_add _ _).trans ?_
        rw [vlen_smul_abs, vlen_smul _ hDp.le]
        have m1 : |h - D| * vlen (A.col 2) ≤ 2 / 1000000 * D * (1001 / 1000) :=
          mul_le_mul hhe hcol1 (vlen_nonneg _) (by positivity)
        have m2 : D * vlen (A.col 2 - u) ≤ D * (23 / 10000000) := mul_le_mul_of_nonneg_left hcol hDp.le
        linarith
      have key : p - ((1 / 2 : ℝ) • (a + b) + s • (1 / 2 : ℝ) • (b - a)) =
          (p - ((s * h) • A.col 2 + c)) + (((s * h) • A.col 2 - s • (1 / 2 : ℝ) • (b - a)) +
            (c - (1 / 2 : ℝ) • (a + b))) := by abel
      rw [key]
      refine (vlen_add _ _).trans ?_
      have := vlen_add ((s * h) • A.col 2 - s • (1 / 2 : ℝ) • (b - a)) (c - (1 / 2 : ℝ) • (a + b))
      generalize (2 : ℝ) ^ (-146 : ℤ) = k at *
      linarith
  obtain ⟨p, hp1, hp2⟩ := hpt 1 (by norm_num)
  obtain ⟨q, hq1, hq2⟩ := hpt (-1) (by norm_num)
  refine ⟨h, A, c, ?_, hhe, by linarith, hcol.trans (by norm_num), ⟨Q, hQ, hAQ⟩, p, q, ?_, ?_, ?_⟩
  · simp only [computePillParameters]
    rw [hed, hc, hA1, hd, mul_fin hd3]
    rfl
  · rw [one_mul] at hp1
    rw [neg_one_mul] at hq1
    rw [getSphereCentersFromPill, hp1, neg, hq1]
  · have : (1 / 2 : ℝ) • (a + b) + (1 : ℝ) • (1 / 2 : ℝ) • (b - a) = b := by
      ext i
      simp only [Pi.add_apply, Pi.sub_apply, Pi.smul_apply, smul_eq_mul]
      ring
    rwa [this] at hp2
  · have : (1 / 2 : ℝ) • (a + b) + (-1 : ℝ) • (1 / 2 : ℝ) • (b - a) = a := by
      ext i
      simp only [Pi.add_apply, Pi.sub_apply, Pi.smul_apply, smul_eq_mul]
      ring
    rwa [this] at hq2

/-- Two points whose coordinates differ by at most `2^-75`, equal points among them, give no pill. -/
theorem C108_pill_throws (a b : Vec3) (ha : ∀ i, Rep (a i)) (hb : ∀ i, Rep (b i)) (hA : vlen a ≤ 2 ^ 59)
    (hB : vlen b ≤ 2 ^ 59) (h : ∀ i, |b i - a i| ≤ 2 ^ (-75 : ℤ)) :
    computePillParameters (Position3D.ofVec a) (Position3D.ofVec b) = .throws := by
  obtain ⟨e, c, hed, hc, -, he, -, -⟩ := half_delta ha hb hA hB
  have hg : Grid (2 ^ (-75 : ℤ)) := ⟨1, -75, by norm_num, by norm_num, by norm_num⟩
  have h1 : ∀ {x : ℝ}, |x| ≤ 2 ^ (-75 : ℤ) → |rnd x| ≤ 2 ^ (-75 : ℤ) := fun hx => by
    rw [abs_rnd]
    exact rnd_le_of_le hg hx
  have h2 : ∀ i, |e i| ≤ 2 ^ (-75 : ℤ) := fun i => by
    rw [he i]
    refine h1 ?_
    rw [abs_mul, abs_of_pos (by norm_num : (0 : ℝ) < 1 / 2)]
    have := h1 (h i)
    have h0 := abs_nonneg (rnd (b i - a i))
    generalize (2 : ℝ) ^ (-75 : ℤ) = k at *
    linarith
  simp only [computePillParameters]
  rw [hed, C108_orthogonalSpace_throws e _ (.inl h2)]
  rfl

/-- Points for which the hypotheses of `C108_pill` hold. -/
example : ∃ h t p q, computePillParameters ⟨fin 0, fin 0, fin 0⟩ ⟨fin 3, fin 4, fin 12⟩ = .ok (h, t) ∧
    getSphereCentersFromPill h t = (Position3D.ofVec p, Position3D.ofVec q) ∧ vlen (p - ![3, 4, 12]) ≤ 1 / 10000 ∧
    vlen (q - ![0, 0, 0]) ≤ 1 / 10000 := by
  have e0 : (![0, 0, 0] : Vec3) = 0 := by
    ext i
    fin_cases i <;> rfl
  have l0 : vlen ![0, 0, 0] = 0 := by
    rw [vlen_coords]
    norm_num
  have ld : vlen (![3, 4, 12] - ![0, 0, 0]) = 13 := by rw [e0, sub_zero, vlen_345]
  have lm : vlen ((1 / 2 : ℝ) • (![0, 0, 0] + ![3, 4, 12])) = 13 / 2 := by
    rw [vlen_smul _ (by norm_num), e0, zero_add, vlen_345]
    norm_num
  obtain ⟨h, A, c, h1, -, -, -, -, p, q, h2, h3, h4⟩ := C108_pill ![0, 0, 0] ![3, 4, 12]
    (fun i => by fin_cases i <;> exact Rep.zero)
    (fun i => by
      fin_cases i
      · exact ⟨3, 0, by norm_num, by norm_num, by norm_num, by norm_num⟩
      · exact ⟨4, 0, by norm_num, by norm_num, by norm_num, by norm_num⟩
      · exact ⟨12, 0, by norm_num, by norm_num, by norm_num, by norm_num⟩)
    (by rw [ld]; norm_num) (by rw [l0]; norm_num) (by rw [vlen_345]; norm_num)
  rw [ld, lm] at h3 h4
  exact ⟨fin h, Transform.ofMat A c, p, q, h1, h2, h3.trans (by norm_num), h4.trans (by norm_num)⟩

/-- Equal points give no pill. -/
example : computePillParameters ⟨fin 1, fin 0, fin 0⟩ ⟨fin 1, fin 0, fin 0⟩ = .throws := by
  have l1 : vlen ![1, 0, 0] ≤ 2 ^ 59 := by rw [vlen_unit_coords.1]; norm_num
  have hr : ∀ i, Rep ((![1, 0, 0] : Vec3) i) := fun i => by
    fin_cases i
    exacts [Rep.one, Rep.zero, Rep.zero]
  refine C108_pill_throws ![1, 0, 0] ![1, 0, 0] hr hr l1 l1 fun i => ?_
  rw [sub_self, abs_zero]
  positivity

/-- A vector that is too long for its square to be a float. -/
example (t : Transform) : orthogonalSpace ⟨fin (2 ^ 64), fin 0, fin 0⟩ t = .throws :=
  C108_orthogonalSpace_throws ![2 ^ 64, 0, 0] t (.inr ⟨0, by norm_num⟩)

end AlMath.F32
