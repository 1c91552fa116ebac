import Verif.Model.Average
import Verif.Lemmas.QuatRot
import Mathlib.Algebra.Quaternion

/-!
C58: averages of transforms.
-/

namespace AlMath

open Average Spec Matrix
open scoped Quaternion

namespace Spec

/-- The quaternion `w + x i + y j + z k`. Not in /repo: specification. -/
def quat (w x y z : ℝ) : ℍ[ℝ] := ⟨w, x, y, z⟩

/-- Rotation of a vector by a quaternion, `q v q*`. Not in /repo: specification. -/
noncomputable def quatRotate (q : ℍ[ℝ]) (v : Vec3) : Vec3 :=
  let r := q * quat 0 (v 0) (v 1) (v 2) * star q
  ![r.imI, r.imJ, r.imK]

/-- The unit quaternion stands for the rotation matrix. Not in /repo: specification. -/
def Represents (q : ℍ[ℝ]) (R : Mat3) : Prop :=
  Quaternion.normSq q = 1 ∧ ∀ v, quatRotate q v = R *ᵥ v

/-- Inner product of quaternions. Not in /repo: specification. -/
noncomputable def quatDot (p q : ℍ[ℝ]) : ℝ := (p * star q).re

@[simp] theorem quat_re (w x y z : ℝ) : (quat w x y z).re = w := rfl
@[simp] theorem quat_imI (w x y z : ℝ) : (quat w x y z).imI = x := rfl
@[simp] theorem quat_imJ (w x y z : ℝ) : (quat w x y z).imJ = y := rfl
@[simp] theorem quat_imK (w x y z : ℝ) : (quat w x y z).imK = z := rfl

end Spec

/-- Eigen's quaternion as a quaternion. -/
def toQuat (q : EQuat) : ℍ[ℝ] := quat q.w (q.vec 0) (q.vec 1) (q.vec 2)

theorem toQuat_inj {p q : EQuat} (h : toQuat p = toQuat q) : p = q := by
  have h0 := congrArg QuaternionAlgebra.re h
  have h1 := congrArg QuaternionAlgebra.imI h
  have h2 := congrArg QuaternionAlgebra.imJ h
  have h3 := congrArg QuaternionAlgebra.imK h
  simp only [toQuat, quat] at h0 h1 h2 h3
  ext l
  · fin_cases l <;> assumption
  · exact h0

/-- The matrix of a unit quaternion. -/
theorem represents_iff (w x y z : ℝ) (R : Mat3) :
    Represents (quat w x y z) R ↔ w * w + x * x + y * y + z * z = 1 ∧
      R = !![1 - 2 * (y ^ 2 + z ^ 2), 2 * (x * y - z * w), 2 * (x * z + y * w);
        2 * (x * y + z * w), 1 - 2 * (x ^ 2 + z ^ 2), 2 * (y * z - x * w);
        2 * (x * z - y * w), 2 * (y * z + x * w), 1 - 2 * (x ^ 2 + y ^ 2)] := by
  unfold Represents
  have hn : Quaternion.normSq (quat w x y z) = 1 ↔ w * w + x * x + y * y + z * z = 1 := by
    rw [Quaternion.normSq_def']
    constructor <;> intro h <;> simp only [quat_re, quat_imI, quat_imJ, quat_imK] at h ⊢ <;> linarith
  rw [hn]
  refine and_congr_right fun h => ?_
  constructor
  · intro hv
    have e0 := hv ![1, 0, 0]
    have e1 := hv ![0, 1, 0]
    have e2 := hv ![0, 0, 1]
    simp only [quatRotate, Matrix.mulVec, funext_iff, Fin.forall_fin_succ, dotProduct,
      Fin.sum_univ_three] at e0 e1 e2
    simp [Quaternion.ext_iff] at e0 e1 e2
    obtain ⟨a0, a1, a2⟩ := e0
    obtain ⟨b0, b1, b2⟩ := e1
    obtain ⟨c0, c1, c2⟩ := e2
    ext i j
    fin_cases i <;> fin_cases j <;> simp <;> nlinarith
  · rintro rfl v
    simp only [quatRotate, Matrix.mulVec, funext_iff, Fin.forall_fin_succ, dotProduct,
      Fin.sum_univ_three]
    simp
    refine ⟨?_, ?_, ?_⟩
    · linear_combination v 0 * h
    · linear_combination v 1 * h
    · linear_combination v 2 * h

theorem toQuat_def (q : EQuat) : toQuat q = quat q.w (q.vec 0) (q.vec 1) (q.vec 2) := rfl

theorem shepperd_arith {a k : ℝ} (ha : 0 < a) :
    4 * (0.5 * √a) * (0.5 * √a) = a ∧ 4 * (0.5 * √a) * (k * (0.5 / √a)) = k ∧ 0.5 * √a ≠ 0 := by
  have hs : 0 < √a := Real.sqrt_pos.2 ha
  have hss : √a * √a = a := Real.mul_self_sqrt ha.le
  refine ⟨?_, ?_, by positivity⟩
  · linear_combination hss
  · field_simp; norm_num

/-- Eigen's conversion gives a quaternion of the rotation. -/
theorem toEigenQuaternion_spec (t : Transform) (ht : IsRigid t) :
    ∃ q, toEigenQuaternion t = .ok q ∧ Represents (toQuat q) t.rotMat := by
  obtain ⟨a, b, c, t1, d, e, f, t2, g, h, i, t3⟩ := t
  have q := IsRot.eqs ht
  have q' := q
  obtain ⟨⟩ := q'
  simp only [toEigenQuaternion, ofMatrix, block, toQuat_def, represents_iff, Transform.rotMat]
  simp only [Matrix.cons_val_zero, Matrix.cons_val_one, Matrix.cons_val]
  by_cases hA : a + e + i > 0
  · simp only [hA, if_true]
    refine ⟨_, rfl, ?_⟩
    simp only [Matrix.cons_val_zero, Matrix.cons_val_one, Matrix.cons_val]
    have hA' : 0 < a + e + i + 1 := by linarith
    obtain ⟨e0, e1, hw⟩ := shepperd_arith (k := h - f) hA'
    obtain ⟨-, e2, -⟩ := shepperd_arith (k := c - g) hA'
    obtain ⟨-, e3, -⟩ := shepperd_arith (k := d - b) hA'
    generalize 0.5 * √(a + e + i + 1) = w at *
    generalize (h - f) * (0.5 / √(a + e + i + 1)) = x at *
    generalize (c - g) * (0.5 / √(a + e + i + 1)) = y at *
    generalize (d - b) * (0.5 / √(a + e + i + 1)) = z at *
    have hxx : 4 * x * x = 1 + a - e - i := quat_prod hw e0 e1 e1 (by linarith)
    have hyy : 4 * y * y = 1 + e - a - i := quat_prod hw e0 e2 e2 (by linarith)
    have hzz : 4 * z * z = 1 + i - a - e := quat_prod hw e0 e3 e3 (by linarith)
    have hxy : 4 * x * y = b + d := quat_prod hw e0 e1 e2 (by linarith)
    have hxz : 4 * x * z = c + g := quat_prod hw e0 e1 e3 (by linarith)
    have hyz : 4 * y * z = f + h := quat_prod hw e0 e2 e3 (by linarith)
    refine ⟨by linarith, ?_⟩
    congr 1
    ext p r
    fin_cases p <;> fin_cases r <;> simp <;> linarith
  · simp only [hA, if_false]
    push Not at hA
    by_cases hI2 : i > (if e > a then e else a)
    · have hi : i > a ∧ i > e := by split_ifs at hI2 <;> constructor <;> linarith
      have hpos : 0 < i - a - e + 1 := by linarith
      obtain ⟨e0, e1, hz⟩ := shepperd_arith (k := d - b) hpos
      obtain ⟨-, e2, -⟩ := shepperd_arith (k := c + g) hpos
      obtain ⟨-, e3, -⟩ := shepperd_arith (k := f + h) hpos
      refine ⟨⟨![(c + g) * (0.5 / √(i - a - e + 1)), (f + h) * (0.5 / √(i - a - e + 1)),
        0.5 * √(i - a - e + 1)], (d - b) * (0.5 / √(i - a - e + 1))⟩, ?_, ?_⟩
      · have : pivot ![![a, b, c], ![d, e, f], ![g, h, i]] = 2 := by
          unfold pivot
          split_ifs at hI2 with h1 <;> simp [h1, hi]
        rw [this]
        simp [ofPivot]
        rw [if_neg (by linarith)]
        simp only [Res.ok.injEq, EQuat.mk.injEq, and_true]
        funext l
        fin_cases l <;> simp
      · simp only [Matrix.cons_val_zero, Matrix.cons_val_one, Matrix.cons_val]
        generalize 0.5 * √(i - a - e + 1) = z at *
        generalize (d - b) * (0.5 / √(i - a - e + 1)) = w at *
        generalize (c + g) * (0.5 / √(i - a - e + 1)) = x at *
        generalize (f + h) * (0.5 / √(i - a - e + 1)) = y at *
        have hww : 4 * w * w = 1 + a + e + i := quat_prod hz e0 e1 e1 (by linarith)
        have hxx : 4 * x * x = 1 + a - e - i := quat_prod hz e0 e2 e2 (by linarith)
        have hyy : 4 * y * y = 1 + e - a - i := quat_prod hz e0 e3 e3 (by linarith)
        have hwx : 4 * w * x = h - f := quat_prod hz e0 e1 e2 (by linarith)
        have hwy : 4 * w * y = c - g := quat_prod hz e0 e1 e3 (by linarith)
        have hxy : 4 * x * y = b + d := quat_prod hz e0 e2 e3 (by linarith)
        refine ⟨by linarith, ?_⟩
        ext p r
        fin_cases p <;> fin_cases r <;> simp <;> linarith
    · by_cases hI1 : e > a
      · rw [if_pos hI1] at hI2
        push Not at hI2
        have hpos : 0 < e - i - a + 1 := by linarith
        obtain ⟨e0, e1, hy⟩ := shepperd_arith (k := c - g) hpos
        obtain ⟨-, e2, -⟩ := shepperd_arith (k := b + d) hpos
        obtain ⟨-, e3, -⟩ := shepperd_arith (k := h + f) hpos
        refine ⟨⟨![(b + d) * (0.5 / √(e - i - a + 1)), 0.5 * √(e - i - a + 1),
          (h + f) * (0.5 / √(e - i - a + 1))], (c - g) * (0.5 / √(e - i - a + 1))⟩, ?_, ?_⟩
        · have : pivot ![![a, b, c], ![d, e, f], ![g, h, i]] = 1 := by
            simp [pivot, hI1, hI2]
          rw [this]
          simp [ofPivot]
          rw [if_neg (by linarith)]
          simp only [Res.ok.injEq, EQuat.mk.injEq, and_true]
          funext l
          fin_cases l <;> simp
        · simp only [Matrix.cons_val_zero, Matrix.cons_val_one, Matrix.cons_val]
          generalize 0.5 * √(e - i - a + 1) = y at *
          generalize (c - g) * (0.5 / √(e - i - a + 1)) = w at *
          generalize (b + d) * (0.5 / √(e - i - a + 1)) = x at *
          generalize (h + f) * (0.5 / √(e - i - a + 1)) = z at *
          have hww : 4 * w * w = 1 + a + e + i := quat_prod hy e0 e1 e1 (by linarith)
          have hxx : 4 * x * x = 1 + a - e - i := quat_prod hy e0 e2 e2 (by linarith)
          have hzz : 4 * z * z = 1 + i - a - e := quat_prod hy e0 e3 e3 (by linarith)
          have hwx : 4 * w * x = h - f := quat_prod hy e0 e1 e2 (by linarith)
          have hwz : 4 * w * z = d - b := quat_prod hy e0 e1 e3 (by linarith)
          have hxz : 4 * x * z = c + g := quat_prod hy e0 e2 e3 (by linarith)
          refine ⟨by linarith, ?_⟩
          ext p r
          fin_cases p <;> fin_cases r <;> simp <;> linarith
      · rw [if_neg hI1] at hI2
        push Not at hI2 hI1
        have hpos : 0 < a - e - i + 1 := by linarith
        obtain ⟨e0, e1, hx⟩ := shepperd_arith (k := h - f) hpos
        obtain ⟨-, e2, -⟩ := shepperd_arith (k := d + b) hpos
        obtain ⟨-, e3, -⟩ := shepperd_arith (k := g + c) hpos
        refine ⟨⟨![0.5 * √(a - e - i + 1), (d + b) * (0.5 / √(a - e - i + 1)),
          (g + c) * (0.5 / √(a - e - i + 1))], (h - f) * (0.5 / √(a - e - i + 1))⟩, ?_, ?_⟩
        · have : pivot ![![a, b, c], ![d, e, f], ![g, h, i]] = 0 := by
            simp [pivot, not_lt.2 hI1, hI2]
          rw [this]
          simp [ofPivot]
          rw [if_neg (by linarith)]
          simp only [Res.ok.injEq, EQuat.mk.injEq, and_true]
          funext l
          fin_cases l <;> simp
        · simp only [Matrix.cons_val_zero, Matrix.cons_val_one, Matrix.cons_val]
          generalize 0.5 * √(a - e - i + 1) = x at *
          generalize (h - f) * (0.5 / √(a - e - i + 1)) = w at *
          generalize (d + b) * (0.5 / √(a - e - i + 1)) = y at *
          generalize (g + c) * (0.5 / √(a - e - i + 1)) = z at *
          have hww : 4 * w * w = 1 + a + e + i := quat_prod hx e0 e1 e1 (by linarith)
          have hyy : 4 * y * y = 1 + e - a - i := quat_prod hx e0 e2 e2 (by linarith)
          have hzz : 4 * z * z = 1 + i - a - e := quat_prod hx e0 e3 e3 (by linarith)
          have hwy : 4 * w * y = c - g := quat_prod hx e0 e1 e2 (by linarith)
          have hwz : 4 * w * z = d - b := quat_prod hx e0 e1 e3 (by linarith)
          have hyz : 4 * y * z = f + h := quat_prod hx e0 e2 e3 (by linarith)
          refine ⟨by linarith, ?_⟩
          ext p r
          fin_cases p <;> fin_cases r <;> simp <;> linarith

theorem quatDot_eq (p q : ℍ[ℝ]) :
    quatDot p q = p.re * q.re + p.imI * q.imI + p.imJ * q.imJ + p.imK * q.imK := by
  simp only [quatDot, Quaternion.re_mul, Quaternion.re_star, Quaternion.imI_star,
    Quaternion.imJ_star, Quaternion.imK_star]
  ring

theorem quatDot_self (q : ℍ[ℝ]) : quatDot q q = Quaternion.normSq q := rfl

theorem quatDot_comm (p q : ℍ[ℝ]) : quatDot p q = quatDot q p := by
  rw [quatDot_eq, quatDot_eq]; ring

theorem quatDot_add (p q r : ℍ[ℝ]) : quatDot (p + q) r = quatDot p r + quatDot q r := by
  simp only [quatDot_eq, Quaternion.re_add, Quaternion.imI_add, Quaternion.imJ_add,
    Quaternion.imK_add]
  ring

theorem quatDot_neg (p q : ℍ[ℝ]) : quatDot (-p) q = -quatDot p q := by
  rw [quatDot_eq, quatDot_eq]; simp; ring

theorem quatDot_sum (l : List ℍ[ℝ]) (r : ℍ[ℝ]) :
    quatDot l.sum r = (l.map fun q => quatDot q r).sum := by
  induction l with
  | nil => simp [quatDot]
  | cons a l ih => rw [List.sum_cons, quatDot_add, ih]; simp

theorem EQuat.dot_eq (p q : EQuat) : p.dot q = quatDot (toQuat p) (toQuat q) := by
  rw [quatDot_eq]; simp [EQuat.dot, toQuat_def]; ring

theorem Represents.neg {q : ℍ[ℝ]} {R : Mat3} (h : Represents q R) : Represents (-q) R := by
  refine ⟨by rw [Quaternion.normSq_neg]; exact h.1, fun v => ?_⟩
  rw [← h.2 v]
  simp [quatRotate]
  refine ⟨by ring, by ring, by ring⟩

/-- The loop adds up quaternions of the rotations that are on the side of the first one. -/
theorem cumulateAll_spec (first : EQuat) (ts : List Transform) (ht : ∀ t ∈ ts, IsRigid t) :
    ∀ c : Cumul, ∃ c' qs, cumulateAll first c ts = .ok c' ∧
      List.Forall₂ (fun t q => Represents q t.rotMat) ts qs ∧
      (∀ q ∈ qs, 0 ≤ quatDot q (toQuat first)) ∧
      toQuat c'.quat = toQuat c.quat + qs.sum ∧
      c'.position = c.position + (ts.map Transform.trans).sum := by
  induction ts with
  | nil => intro c; exact ⟨c, [], rfl, .nil, by simp, by simp, by simp⟩
  | cons t ts ih =>
    intro c
    obtain ⟨q, hq, hr⟩ := toEigenQuaternion_spec t (ht t (by simp))
    simp only [cumulateAll, cumulate, hq, Res.map_ok, Res.bind_ok]
    have htr : ∀ l, ![t.r14, t.r24, t.r34] l = t.trans l := fun _ => rfl
    by_cases hd : q.dot first ≥ 0
    · obtain ⟨c', qs, h1, h2, h3, h4, h5⟩ := ih (fun t h => ht t (by simp [h]))
        { quat := ⟨fun l => c.quat.vec l + q.vec l, c.quat.w + q.w⟩,
          position := fun l => c.position l + ![t.r14, t.r24, t.r34] l }
      refine ⟨c', toQuat q :: qs, ?_, .cons hr h2, ?_, ?_, ?_⟩
      · simpa [hd] using h1
      · intro p hp
        rcases List.mem_cons.1 hp with rfl | hp
        · rw [← EQuat.dot_eq]; exact hd
        · exact h3 p hp
      · rw [h4, List.sum_cons, ← add_assoc]
        congr 1
      · rw [h5, List.map_cons, List.sum_cons, ← add_assoc]
        rfl
    · obtain ⟨c', qs, h1, h2, h3, h4, h5⟩ := ih (fun t h => ht t (by simp [h]))
        { quat := ⟨fun l => c.quat.vec l + -q.vec l, c.quat.w + -q.w⟩,
          position := fun l => c.position l + ![t.r14, t.r24, t.r34] l }
      refine ⟨c', -toQuat q :: qs, ?_, .cons (Represents.neg hr) h2, ?_, ?_, ?_⟩
      · simpa [hd] using h1
      · intro p hp
        rcases List.mem_cons.1 hp with rfl | hp
        · have : quatDot (-toQuat q) (toQuat first) = - q.dot first := by
            rw [EQuat.dot_eq, quatDot_eq, quatDot_eq]; simp; ring
          rw [this]; push Not at hd; linarith
        · exact h3 p hp
      · rw [h4, List.sum_cons, ← add_assoc]
        congr 1
      · rw [h5, List.map_cons, List.sum_cons, ← add_assoc]
        rfl

/-- The normalised quaternion. -/
theorem normalize_spec (q : EQuat) (h : toQuat q ≠ 0) :
    ∃ (q' : EQuat) (c : ℝ), q.normalize = .ok q' ∧ 0 < c ∧ toQuat q' = c • toQuat q ∧
      Quaternion.normSq (toQuat q') = 1 := by
  have hn : 0 < q.dot q := by
    rw [EQuat.dot_eq, quatDot_self]
    exact lt_of_le_of_ne Quaternion.normSq_nonneg (Ne.symm (by simpa using h))
  have hs : 0 < √(q.dot q) := Real.sqrt_pos.2 hn
  have e : toQuat ⟨fun l => q.vec l / √(q.dot q), q.w / √(q.dot q)⟩ = (√(q.dot q))⁻¹ • toQuat q := by
    ext <;> simp [toQuat_def] <;> ring
  refine ⟨_, (√(q.dot q))⁻¹, ?_, by positivity, e, ?_⟩
  · unfold EQuat.normalize
    simp only [hs.ne', if_false]
  · rw [e, Quaternion.normSq_smul, ← quatDot_self, ← EQuat.dot_eq, inv_pow, Real.sq_sqrt hn.le]
    field_simp

/-- The rotation matrix of a unit quaternion. -/
theorem toRotationMatrix_spec (q : EQuat) (h : Quaternion.normSq (toQuat q) = 1) :
    Represents (toQuat q) (Matrix.of q.toRotationMatrix) := by
  rw [toQuat_def, represents_iff]
  rw [Quaternion.normSq_def'] at h
  simp only [toQuat_def, quat_re, quat_imI, quat_imJ, quat_imK] at h
  refine ⟨by linarith, ?_⟩
  ext i j
  fin_cases i <;> fin_cases j <;> simp [EQuat.toRotationMatrix] <;> ring

theorem Represents.isRot {q : ℍ[ℝ]} {R : Mat3} (h : Represents q R) : IsRot R := by
  have hq : q = quat q.re q.imI q.imJ q.imK := rfl
  rw [hq, represents_iff] at h
  obtain ⟨hn, rfl⟩ := h
  generalize q.re = w at *
  generalize q.imI = x at *
  generalize q.imJ = y at *
  generalize q.imK = z at *
  have hw : w * w = 1 - x * x - y * y - z * z := by linarith
  rw [isRot_coord]
  refine ⟨⟨?_, ?_, ?_, ?_, ?_, ?_⟩, ?_⟩
  · linear_combination (4 * (y ^ 2 + z ^ 2)) * hw
  · linear_combination (4 * (x ^ 2 + z ^ 2)) * hw
  · linear_combination (4 * (x ^ 2 + y ^ 2)) * hw
  · linear_combination (-4 * x * y) * hw
  · linear_combination (-4 * x * z) * hw
  · linear_combination (-4 * y * z) * hw
  · linear_combination (4 * (x ^ 2 + y ^ 2 + z ^ 2)) * hw

/-- The sum of quaternions on the side of a unit quaternion among them is not zero. -/
theorem sum_ne_zero (q : ℍ[ℝ]) (qs : List ℍ[ℝ]) (hq : Quaternion.normSq q = 1)
    (h : ∀ p ∈ qs, 0 ≤ quatDot p q) : (q :: qs).sum ≠ 0 := by
  intro h0
  have : quatDot (q :: qs).sum q = 0 := by rw [h0]; simp [quatDot]
  rw [List.sum_cons, quatDot_add, quatDot_self, hq, quatDot_sum] at this
  have : 0 ≤ (qs.map fun p => quatDot p q).sum := by
    apply List.sum_nonneg
    intro x hx
    obtain ⟨p, hp, rfl⟩ := List.mem_map.1 hx
    exact h p hp
  linarith

/-- The average exists, is rigid, has the mean translation, and its rotation is that of the
normalised sum of quaternions of the rotations chosen on the side of the first one. -/
theorem C58_average (t : Transform) (ts : List Transform) (ht : ∀ u ∈ t :: ts, IsRigid u) :
    ∃ r, averageTransforms (t :: ts) = .ok r ∧ IsRigid r ∧
      r.trans = ((t :: ts).length : ℝ)⁻¹ • ((t :: ts).map Transform.trans).sum ∧
      ∃ (q : ℍ[ℝ]) (qs : List ℍ[ℝ]) (c : ℝ),
        List.Forall₂ (fun u p => Represents p u.rotMat) (t :: ts) (q :: qs) ∧
        (∀ p ∈ qs, 0 ≤ quatDot p q) ∧ 0 < c ∧ Represents (c • (q :: qs).sum) r.rotMat := by
  obtain ⟨q, hq, hr⟩ := toEigenQuaternion_spec t (ht t (by simp))
  have hqq : q.dot q ≥ 0 := by rw [EQuat.dot_eq, quatDot_self, hr.1]; norm_num
  obtain ⟨c', qs, h1, h2, h3, h4, h5⟩ := cumulateAll_spec q ts (fun u h => ht u (by simp [h]))
    { quat := ⟨fun l => 0 + q.vec l, 0 + q.w⟩, position := fun l => 0 + ![t.r14, t.r24, t.r34] l }
  have h4' : toQuat c'.quat = (toQuat q :: qs).sum := by
    rw [h4, List.sum_cons]
    congr 1
    ext <;> simp [toQuat_def]
  have h5' : c'.position = ((t :: ts).map Transform.trans).sum := by
    rw [h5, List.map_cons, List.sum_cons]
    congr 1
    funext l
    simp [Transform.trans]
  obtain ⟨q', c, g1, g2, g3, g4⟩ := normalize_spec c'.quat
    (by rw [h4']; exact sum_ne_zero _ _ hr.1 h3)
  have hm := toRotationMatrix_spec q' g4
  have e : averageTransforms (t :: ts) = .ok ⟨q'.toRotationMatrix 0 0, q'.toRotationMatrix 0 1,
      q'.toRotationMatrix 0 2, c'.position 0 * (1 / ((t :: ts).length : ℝ)),
      q'.toRotationMatrix 1 0, q'.toRotationMatrix 1 1, q'.toRotationMatrix 1 2,
      c'.position 1 * (1 / ((t :: ts).length : ℝ)), q'.toRotationMatrix 2 0,
      q'.toRotationMatrix 2 1, q'.toRotationMatrix 2 2,
      c'.position 2 * (1 / ((t :: ts).length : ℝ))⟩ := by
    simp only [averageTransforms, hq, Res.bind_ok, cumulateAll, cumulate, Res.map_ok, hqq,
      not_true_eq_false, if_false, h1, g1]
  refine ⟨_, e, ?_, ?_, toQuat q, qs, c, .cons hr h2, h3, g2, ?_⟩
  · have := Represents.isRot hm
    rw [IsRigid]
    convert this using 1
    ext i j
    fin_cases i <;> fin_cases j <;> rfl
  · rw [h5']
    generalize ((t :: ts).map Transform.trans).sum = S
    funext l
    fin_cases l <;> simp [Transform.trans, mul_comm]
  · rw [← h4', ← g3]
    convert hm using 1
    ext i j
    fin_cases i <;> fin_cases j <;> rfl

/-- Two quaternions of the same rotation are equal or opposite. -/
theorem Represents.unique {p q : ℍ[ℝ]} {R : Mat3} (hp : Represents p R) (hq : Represents q R) :
    p = q ∨ p = -q := by
  have ep : p = quat p.re p.imI p.imJ p.imK := rfl
  have eq : q = quat q.re q.imI q.imJ q.imK := rfl
  have hp' := hp
  have hq' := hq
  rw [ep, represents_iff] at hp'
  rw [eq, represents_iff] at hq'
  obtain ⟨np, e1⟩ := hp'
  obtain ⟨nq, e2⟩ := hq'
  rw [e1] at e2
  have f00 := congrFun (congrFun e2 0) 0
  have f01 := congrFun (congrFun e2 0) 1
  have f02 := congrFun (congrFun e2 0) 2
  have f10 := congrFun (congrFun e2 1) 0
  have f11 := congrFun (congrFun e2 1) 1
  have f12 := congrFun (congrFun e2 1) 2
  have f20 := congrFun (congrFun e2 2) 0
  have f21 := congrFun (congrFun e2 2) 1
  have f22 := congrFun (congrFun e2 2) 2
  simp at f00 f01 f02 f10 f11 f12 f20 f21 f22
  clear ep eq e1 e2
  have hd : quatDot p q * quatDot p q = 1 := by
    rw [quatDot_eq]
    generalize p.re = a at *
    generalize p.imI = b at *
    generalize p.imJ = c at *
    generalize p.imK = d at *
    generalize q.re = a' at *
    generalize q.imI = b' at *
    generalize q.imJ = c' at *
    generalize q.imK = d' at *
    have k1 : b * b = b' * b' := by linarith
    have k2 : c * c = c' * c' := by linarith
    have k3 : d * d = d' * d' := by linarith
    have k0 : a * a = a' * a' := by linarith
    have k01 : a * b = a' * b' := by linarith
    have k02 : a * c = a' * c' := by linarith
    have k03 : a * d = a' * d' := by linarith
    have k12 : b * c = b' * c' := by linarith
    have k13 : b * d = b' * d' := by linarith
    have k23 : c * d = c' * d' := by linarith
    have : (a * a' + b * b' + c * c' + d * d') * (a * a' + b * b' + c * c' + d * d') =
        (a' * a' + b' * b' + c' * c' + d' * d') * (a' * a' + b' * b' + c' * c' + d' * d') := by
      linear_combination a' * a' * k0 + b' * b' * k1 + c' * c' * k2 + d' * d' * k3 +
        2 * a' * b' * k01 + 2 * a' * c' * k02 + 2 * a' * d' * k03 + 2 * b' * c' * k12 +
        2 * b' * d' * k13 + 2 * c' * d' * k23
    rw [this, nq]; norm_num
  rcases mul_self_eq_one_iff.1 hd with h | h
  · left
    rw [← sub_eq_zero, ← Quaternion.normSq_eq_zero, sub_eq_add_neg, Quaternion.normSq_add,
      Quaternion.normSq_neg, hp.1, hq.1, star_neg, mul_neg, Quaternion.re_neg]
    have h : (p * star q).re = 1 := h
    rw [h]; norm_num
  · right
    rw [← sub_eq_zero, ← Quaternion.normSq_eq_zero, sub_neg_eq_add, Quaternion.normSq_add,
      hp.1, hq.1]
    have h : (p * star q).re = -1 := h
    rw [h]; norm_num

/-- The matrix of a quaternion is unique. -/
theorem Represents.mat_unique {q : ℍ[ℝ]} {R S : Mat3} (h : Represents q R) (h' : Represents q S) :
    R = S := by
  have hq : q = quat q.re q.imI q.imJ q.imK := rfl
  rw [hq, represents_iff] at h h'
  rw [h.2, h'.2]

/-- A multiple of a unit quaternion that is a unit quaternion, with positive factor. -/
theorem smul_unit {c : ℝ} {q : ℍ[ℝ]} (hc : 0 < c) (h : Quaternion.normSq (c • q) = 1)
    (hq : Quaternion.normSq q = 1) : c = 1 := by
  rw [Quaternion.normSq_smul, hq, mul_one] at h
  nlinarith [sq_nonneg (c - 1)]

/-- An exception is thrown exactly when there is no transform. -/
theorem C58_throws (ts : List Transform) (ht : ∀ t ∈ ts, IsRigid t) :
    (averageTransforms ts = .throws ↔ ts = []) ∧ averageTransforms ts ≠ .ub := by
  cases ts with
  | nil => simp [averageTransforms]
  | cons t ts =>
    obtain ⟨r, e, -⟩ := C58_average t ts ht
    simp [e]

theorem replicate_reps {R : Mat3} {q : ℍ[ℝ]} (hq : Represents q R) (n : ℕ) (t : Transform)
    (hR : t.rotMat = R) (qs : List ℍ[ℝ])
    (h : List.Forall₂ (fun u p => Represents p u.rotMat) (List.replicate n t) qs)
    (hd : ∀ p ∈ qs, 0 ≤ quatDot p q) : qs = List.replicate n q := by
  induction n generalizing qs with
  | zero => cases h; rfl
  | succ n ih =>
    rw [List.replicate_succ] at h
    cases h with
    | @cons _ p _ qs' h1 h2 =>
      have h1 : Represents p t.rotMat := h1
      rw [hR] at h1
      have hpq : p = q := by
        rcases Represents.unique h1 hq with e | e
        · exact e
        · exfalso
          have := hd p (by simp)
          rw [e, quatDot_neg, quatDot_self, hq.1] at this
          linarith
      rw [List.replicate_succ, hpq, ih qs' h2 (fun p hp => hd p (by simp [hp]))]

/-- Averaging copies of a transform gives it back. -/
theorem C58_copies (t : Transform) (ht : IsRigid t) (n : ℕ) (hn : n ≠ 0) :
    averageTransforms (List.replicate n t) = .ok t := by
  obtain ⟨n, rfl⟩ := Nat.exists_eq_succ_of_ne_zero hn
  rw [Nat.succ_eq_add_one, List.replicate_succ]
  obtain ⟨r, e, -, h2, q, qs, c, h3, h4, h5, h6⟩ := C58_average t (List.replicate n t)
    (by intro u hu; rw [← List.replicate_succ] at hu; rw [List.eq_of_mem_replicate hu]; exact ht)
  rw [e]
  cases h3 with
  | cons hq hqs =>
    rw [replicate_reps hq n t rfl qs hqs h4, ← List.replicate_succ, List.sum_replicate,
      ← Nat.cast_smul_eq_nsmul ℝ, smul_smul] at h6
    have h1 : c * ((n + 1 : ℕ) : ℝ) = 1 :=
      smul_unit (mul_pos h5 (by positivity)) h6.1 hq.1
    rw [h1, one_smul] at h6
    have hrot := Represents.mat_unique h6 hq
    have htr : r.trans = t.trans := by
      rw [h2, ← List.replicate_succ, List.map_replicate, List.sum_replicate, List.length_replicate,
        ← Nat.cast_smul_eq_nsmul ℝ, smul_smul, inv_mul_cancel₀ (by positivity), one_smul]
    congr 1
    have k := fun i j => congrFun (congrFun hrot i) j
    have k00 := k 0 0; have k01 := k 0 1; have k02 := k 0 2
    have k10 := k 1 0; have k11 := k 1 1; have k12 := k 1 2
    have k20 := k 2 0; have k21 := k 2 1; have k22 := k 2 2
    have l0 := congrFun htr 0; have l1 := congrFun htr 1; have l2 := congrFun htr 2
    simp [Transform.rotMat, Transform.trans] at k00 k01 k02 k10 k11 k12 k20 k21 k22 l0 l1 l2
    ext <;> assumption

/-- The identity and a quarter turn about z followed by a translation are rigid. -/
example : ∀ u ∈ [Transform.one, ⟨0, -1, 0, 5, 1, 0, 0, 6, 0, 0, 1, 7⟩], IsRigid u := by
  intro u hu
  simp only [List.mem_cons, List.not_mem_nil, or_false] at hu
  rcases hu with rfl | rfl <;>
    simp [IsRigid, Transform.rotMat, Transform.one, isRot_coord]

/-- A half turn about z (the branch of Eigen's conversion for matrices without positive trace). -/
example : IsRigid ⟨-1, 0, 0, 1, 0, -1, 0, 2, 0, 0, 1, 3⟩ ∧ (3 : ℕ) ≠ 0 := by
  simp [IsRigid, Transform.rotMat, isRot_coord]

end AlMath
