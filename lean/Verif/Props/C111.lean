import Verif.Model.FloatFrame
import Verif.Props.C82
import Verif.Lemmas.FloatExp
import Verif.Lemmas.Rodrigues
import Verif.Lemmas.FloatNear

/-!
C111: changes of reference frame in single precision.
-/

namespace AlMath.F32

open AlMath.Spec Matrix

/-- The velocity with the finite parts `v` and `w`. Not in /repo: specification. -/
def Velocity6D.ofParts (v w : Vec3) : Velocity6D := ⟨fin (v 0), fin (v 1), fin (v 2), fin (w 0), fin (w 1), fin (w 2)⟩

/-- The position with the finite parts `v` and `w`. Not in /repo: specification. -/
def Position6D.ofParts (v w : Vec3) : Position6D := ⟨fin (v 0), fin (v 1), fin (v 2), fin (w 0), fin (w 1), fin (w 2)⟩

/-- `w` is the rotated vector `P v`, up to rounding and the error `e` of the matrix. Not in /repo: specification. -/
def Turned (P : Mat3) (e : ℝ) (v w : Vec3) : Prop :=
  (∀ i, Rep (w i)) ∧ vlen (w - P *ᵥ v) ≤ (e + 2 ^ (-20 : ℤ)) * vlen v + 2 ^ (-147 : ℤ)

/-- Three scalar products with the rows of a matrix near a rotation. -/
theorem dots_turned {A P : Mat3} {e : ℝ} (hP : Pᵀ * P = 1) (hA : fro (A - P) ≤ e) (he : e ≤ 1) {v : Vec3} (hv : vlen v ≤ 2 ^ 119) :
    ∃ w : Vec3, (∀ i, dot (fin (A i 0)) (fin (A i 1)) (fin (A i 2)) (fin (v 0)) (fin (v 1)) (fin (v 2)) = fin (w i)) ∧
      Turned P e v w := by
  obtain ⟨w, hw, hr, hE⟩ := dot_ofVec (fro_near hP hA he) hv
  refine ⟨w, hw, hr, ?_⟩
  have h1 : w - P *ᵥ v = (w - A *ᵥ v) + (A - P) *ᵥ v := by
    rw [Matrix.sub_mulVec]
    abel
  rw [h1]
  have h2 := vlen_add (w - A *ᵥ v) ((A - P) *ᵥ v)
  have h3 := vlen_mulVec (A - P) v
  have h4 := mul_le_mul_of_nonneg_right hA (vlen_nonneg v)
  linarith

theorem rot_transpose {A P : Mat3} {e : ℝ} (hP : Pᵀ * P = 1) (hA : fro (A - P) ≤ e) :
    (Pᵀ)ᵀ * Pᵀ = 1 ∧ fro (Aᵀ - Pᵀ) ≤ e :=
  ⟨by rw [transpose_transpose]; exact mul_eq_one_comm.1 hP, by rwa [← transpose_sub, fro_transpose]⟩

/-- Forward: the rotation of the matrix, its translation plays no role. -/
theorem C111_forward (A P : Mat3) (t v w : Vec3) (e : ℝ) (hP : Pᵀ * P = 1) (hA : fro (A - P) ≤ e) (he : e ≤ 1)
    (hv : vlen v ≤ 2 ^ 119) (hw : vlen w ≤ 2 ^ 119) :
    ∃ v' w', Turned P e v v' ∧ Turned P e w w' ∧
      changeReferenceVelocity6D (Transform.ofMat A t) (Velocity6D.ofParts v w) = Velocity6D.ofParts v' w' ∧
      changeReferencePosition6D (Transform.ofMat A t) (Position6D.ofParts v w) = Position6D.ofParts v' w' ∧
      changeReferencePosition3D (Transform.ofMat A t) (Position3D.ofVec v) = Position3D.ofVec v' := by
  obtain ⟨v', h1, h2⟩ := dots_turned hP hA he hv
  obtain ⟨w', k1, k2⟩ := dots_turned hP hA he hw
  refine ⟨v', w', h2, k2, ?_, ?_, ?_⟩
  · simp only [changeReferenceVelocity6D, Transform.ofMat, Rotation.ofMat, Velocity6D.ofParts, h1, k1]
  · simp only [changeReferencePosition6D, Transform.ofMat, Rotation.ofMat, Position6D.ofParts, h1, k1]
  · simp only [changeReferencePosition3D, Transform.ofMat, Rotation.ofMat, Position3D.ofVec, h1]

/-- Non-trivial case, also of the three theorems below: a quarter turn about the vertical axis. -/
example : (!![0, -1, 0; 1, 0, 0; 0, 0, 1] : Mat3)ᵀ * !![0, -1, 0; 1, 0, 0; 0, 0, 1] = 1 ∧
    fro ((!![0, -1, 0; 1, 0, 0; 0, 0, 1] : Mat3) - !![0, -1, 0; 1, 0, 0; 0, 0, 1]) ≤ 2 ^ (-19 : ℤ) ∧
    vlen ![3, 4, 0] ≤ 2 ^ 117 ∧ !![0, -1, 0; 1, 0, 0; 0, 0, 1] *ᵥ ![3, 4, 0] = (![-4, 3, 0] : Vec3) := by
  refine ⟨?_, ?_, ?_, ?_⟩
  · ext i j
    fin_cases i <;> fin_cases j <;> simp [Matrix.mul_apply, Fin.sum_univ_three]
  · rw [sub_self, fro]
    simp
  · rw [vlen, Fin.sum_univ_three]
    simp only [Matrix.cons_val_zero, Matrix.cons_val_one, Matrix.cons_val]
    rw [show (3 : ℝ) ^ 2 + 4 ^ 2 + 0 ^ 2 = 5 ^ 2 by norm_num, Real.sqrt_sq (by norm_num)]
    norm_num
  · ext i
    fin_cases i <;> simp [Matrix.mulVec, dotProduct, Fin.sum_univ_three]

/-- Backward: the transposed rotation. -/
theorem C111_transposed (A P : Mat3) (t v w : Vec3) (e : ℝ) (hP : Pᵀ * P = 1) (hA : fro (A - P) ≤ e) (he : e ≤ 1)
    (hv : vlen v ≤ 2 ^ 119) (hw : vlen w ≤ 2 ^ 119) :
    ∃ v' w', Turned Pᵀ e v v' ∧ Turned Pᵀ e w w' ∧
      changeReferenceTransposeVelocity6D (Transform.ofMat A t) (Velocity6D.ofParts v w) = Velocity6D.ofParts v' w' ∧
      changeReferenceTransposePosition6D (Transform.ofMat A t) (Position6D.ofParts v w) = Position6D.ofParts v' w' ∧
      changeReferenceTransposePosition3D (Transform.ofMat A t) (Position3D.ofVec v) = Position3D.ofVec v' := by
  obtain ⟨hP', hA'⟩ := rot_transpose hP hA
  obtain ⟨v', h1, h2⟩ := dots_turned hP' hA' he hv
  obtain ⟨w', k1, k2⟩ := dots_turned hP' hA' he hw
  simp only [transpose_apply] at h1 k1
  refine ⟨v', w', h2, k2, ?_, ?_, ?_⟩
  · simp only [changeReferenceTransposeVelocity6D, Transform.ofMat, Rotation.ofMat, Velocity6D.ofParts, h1, k1]
  · simp only [changeReferenceTransposePosition6D, Transform.ofMat, Rotation.ofMat, Position6D.ofParts, h1, k1]
  · simp only [changeReferenceTransposePosition3D, Transform.ofMat, Rotation.ofMat, Position3D.ofVec, h1]

theorem turned_back {P : Mat3} {e : ℝ} {v w x : Vec3} (hP : Pᵀ * P = 1) (e0 : 0 ≤ e) (he : e ≤ 1) (h1 : Turned P e v w)
    (h2 : Turned Pᵀ e w x) : vlen (x - v) ≤ (4 * e + 2 ^ (-18 : ℤ)) * vlen v + 2 ^ (-145 : ℤ) := by
  obtain ⟨hP', -⟩ := rot_transpose hP (A := P) (e := 0) (by simp [fro])
  have a1 : x - v = (x - Pᵀ *ᵥ w) + Pᵀ *ᵥ (w - P *ᵥ v) := by
    rw [mulVec_sub, mulVec_mulVec, hP, one_mulVec]
    abel
  have a2 := vlen_add (x - Pᵀ *ᵥ w) (Pᵀ *ᵥ (w - P *ᵥ v))
  rw [vlen_rot hP'] at a2
  have a3 := vlen_add (w - P *ᵥ v) (P *ᵥ v)
  rw [sub_add_cancel, vlen_rot hP] at a3
  rw [a1]
  have b1 := h1.2
  have b2 := h2.2
  have v0 := vlen_nonneg v
  have w0 := vlen_nonneg w
  have u : 4 * (2 : ℝ) ^ (-147 : ℤ) = 2 ^ (-145 : ℤ) := by
    rw [show (4 : ℝ) = 2 ^ (2 : ℤ) by norm_num, ← zpow_add₀ (by norm_num)]
    norm_num
  have u0 : (0 : ℝ) < 2 ^ (-147 : ℤ) := by positivity
  rw [← u]
  rw [show (2 : ℝ) ^ (-20 : ℤ) = 1 / 1048576 by norm_num] at b1 b2
  rw [show (2 : ℝ) ^ (-18 : ℤ) = 4 / 1048576 by norm_num]
  generalize (2 : ℝ) ^ (-147 : ℤ) = E at *
  have w1 : vlen w ≤ 2.1 * vlen v + E := by
    norm_num
    nlinarith
  have w2 : vlen w ≤ vlen v + (e + 1 / 1048576) * vlen v + E := by linarith
  have w3 : (e + 1 / 1048576) * vlen w ≤ (e + 1 / 1048576) * (2.1 * vlen v + E) := mul_le_mul_of_nonneg_left w1 (by linarith)
  norm_num at w3
  nlinarith

/-- Forward and backward: the vector, up to rounding and the error of the matrix. -/
theorem C111_back (A P : Mat3) (t v : Vec3) (e : ℝ) (hP : Pᵀ * P = 1) (hA : fro (A - P) ≤ e) (he : e ≤ 1) (hv : vlen v ≤ 2 ^ 117) :
    ∃ x, changeReferenceTransposePosition3D (Transform.ofMat A t)
        (changeReferencePosition3D (Transform.ofMat A t) (Position3D.ofVec v)) = Position3D.ofVec x ∧
      vlen (x - v) ≤ (4 * e + 2 ^ (-18 : ℤ)) * vlen v + 2 ^ (-145 : ℤ) := by
  have e0 : 0 ≤ e := (fro_nonneg _).trans hA
  have hv' : vlen v ≤ 2 ^ 119 := hv.trans (by norm_num)
  obtain ⟨w, -, h1, -, -, -, h2⟩ := C111_forward A P t v v e hP hA he hv' hv'
  have hw : vlen w ≤ 2 ^ 119 := by
    have a3 := vlen_add (w - P *ᵥ v) (P *ᵥ v)
    rw [sub_add_cancel, vlen_rot hP] at a3
    have b1 := h1.2
    have v0 := vlen_nonneg v
    have E1 : (2 : ℝ) ^ (-147 : ℤ) ≤ 1 := zpow_le_one_of_nonpos₀ (by norm_num) (by norm_num)
    rw [show (2 : ℝ) ^ (-20 : ℤ) = 1 / 1048576 by norm_num] at b1
    generalize (2 : ℝ) ^ (-147 : ℤ) = E at *
    have : (e + 1 / 1048576) * vlen v ≤ (1 + 1 / 1048576) * vlen v := mul_le_mul_of_nonneg_right (by linarith) v0
    norm_num at hv this ⊢
    linarith
  obtain ⟨x, -, k1, -, -, -, k2⟩ := C111_transposed A P t w w e hP hA he hw hw
  rw [h2]
  exact ⟨x, k2, turned_back hP e0 he h1 k1⟩

/-- Transforms: the rotations are composed, the translation of the second is rotated. -/
theorem C111_transform (A P B Q : Mat3) (t v : Vec3) (e f : ℝ) (hP : Pᵀ * P = 1) (hQ : Qᵀ * Q = 1) (hA : fro (A - P) ≤ e)
    (hB : fro (B - Q) ≤ f) (he : e ≤ 1) (hf : f ≤ 1) (hv : vlen v ≤ 2 ^ 119) :
    (∃ C v', changeReferenceTransform (Transform.ofMat A t) (Transform.ofMat B v) = Transform.ofMat C v' ∧
      fro (C - P * Q) ≤ e + f + e * f + 2 ^ (-19 : ℤ) ∧ Turned P e v v') ∧
    ∃ C v', changeReferenceTransposeTransform (Transform.ofMat A t) (Transform.ofMat B v) = Transform.ofMat C v' ∧
      fro (C - Pᵀ * Q) ≤ e + f + e * f + 2 ^ (-19 : ℤ) ∧ Turned Pᵀ e v v' := by
  obtain ⟨hP', hA'⟩ := rot_transpose hP hA
  constructor
  · obtain ⟨C, c1, c2⟩ := mul_near hP hQ hA hB he hf
    obtain ⟨v', h1, h2⟩ := dots_turned hP hA he hv
    refine ⟨C, v', ?_, c2, h2⟩
    rw [show Transform.ofMat C v' = ⟨Rotation.ofMat C, fin (v' 0), fin (v' 1), fin (v' 2)⟩ from rfl, ← c1, ← h1 0, ← h1 1, ← h1 2]
    rfl
  · obtain ⟨C, c1, c2⟩ := mul_near hP' hQ hA' hB he hf
    obtain ⟨v', h1, h2⟩ := dots_turned hP' hA' he hv
    refine ⟨C, v', ?_, c2, h2⟩
    rw [show Transform.ofMat C v' = ⟨Rotation.ofMat C, fin (v' 0), fin (v' 1), fin (v' 2)⟩ from rfl, ← c1, ← h1 0, ← h1 1, ← h1 2]
    rfl

/-! ### position6DFromTransformDiff -/

theorem diff_term {a b c d a' b' c' d' e f : ℝ} (ra : Rep a) (rb : Rep b) (rc : Rep c) (rd : Rep d) (ha : |a - a'| ≤ e)
    (hb : |b - b'| ≤ f) (hc : |c - c'| ≤ e) (hd : |d - d'| ≤ f) (a1 : |a'| ≤ 1) (b1 : |b'| ≤ 1) (c1 : |c'| ≤ 1) (d1 : |d'| ≤ 1)
    (he : e ≤ 1 / 8) (hf : f ≤ 1 / 8) :
    Near (sub (mul (fin a) (fin b)) (mul (fin c) (fin d))) (a * b - c * d) (6 / 16777216) ∧ |a * b - c * d| ≤ 3 ∧
      |a * b - c * d - (a' * b' - c' * d')| ≤ 2 * (e + f + e * f) := by
  have bd : ∀ {p p' g : ℝ}, |p - p'| ≤ g → |p'| ≤ 1 → g ≤ 1 / 8 → |p| ≤ 9 / 8 := fun h h1 h2 => by
    have := le_of_err h
    linarith
  have A1 := bd ha a1 he
  have B1 := bd hb b1 hf
  have C1 := bd hc c1 he
  have D1 := bd hd d1 hf
  have pr : ∀ {p q : ℝ}, |p| ≤ 9 / 8 → |q| ≤ 9 / 8 → |p * q| ≤ 13 / 10 := fun h1 h2 => by
    rw [abs_mul]
    exact (mul_le_mul h1 h2 (abs_nonneg _) (by norm_num)).trans (by norm_num)
  have er : ∀ {p q p' q' : ℝ}, |p - p'| ≤ e → |q - q'| ≤ f → |p'| ≤ 1 → |q'| ≤ 1 → |p * q - p' * q'| ≤ e + f + e * f :=
    fun {p q p' q'} h1 h2 h3 h4 => by
    have e1 : p * q - p' * q' = (p - p') * q' + p' * (q - q') + (p - p') * (q - q') := by ring
    rw [e1]
    refine (abs_add_three _ _ _).trans ?_
    rw [abs_mul, abs_mul, abs_mul]
    have e0 : 0 ≤ e := (abs_nonneg _).trans h1
    have f0 : 0 ≤ f := (abs_nonneg _).trans h2
    have k1 : |p - p'| * |q'| ≤ e * 1 := mul_le_mul h1 h4 (abs_nonneg _) e0
    have k2 : |p'| * |q - q'| ≤ 1 * f := mul_le_mul h3 h2 (abs_nonneg _) zero_le_one
    have k3 : |p - p'| * |q - q'| ≤ e * f := mul_le_mul h1 h2 (abs_nonneg _) e0
    linarith
  have n1 := Near.mul (Near.of_rep ra) (Near.of_rep rb) A1 B1 (1.3 / 16777216) (by norm_num) (by norm_num)
  have n2 := Near.mul (Near.of_rep rc) (Near.of_rep rd) C1 D1 (1.3 / 16777216) (by norm_num) (by norm_num)
  have s : |a * b - c * d| ≤ 3 := (abs_sub _ _).trans (by
    have h1 := pr A1 B1
    have h2 := pr C1 D1
    linarith)
  refine ⟨Near.sub n1 n2 s _ (by norm_num) (by norm_num), s, ?_⟩
  have e2 : a * b - c * d - (a' * b' - c' * d') = (a * b - a' * b') - (c * d - c' * d') := by ring
  rw [e2]
  refine (abs_sub _ _).trans ?_
  have h1 := er ha hb a1 b1
  have h2 := er hc hd c1 d1
  linarith

theorem orth_entry_le {P : Mat3} (hP : Pᵀ * P = 1) (i j : Fin 3) : |P i j| ≤ 1 := by
  have h2 : P i j ^ 2 ≤ 1 := by
    have h3 : (Pᵀ * P) j j = 1 := by rw [hP, Matrix.one_apply_eq]
    rw [Matrix.mul_apply] at h3
    rw [← h3]
    calc P i j ^ 2 = Pᵀ j i * P i j := by rw [Matrix.transpose_apply, pow_two]
      _ ≤ _ := Finset.single_le_sum (f := fun k => Pᵀ j k * P k j)
        (fun k _ => by rw [Matrix.transpose_apply]; exact mul_self_nonneg _) (Finset.mem_univ i)
  rwa [sq_le_one_iff_abs_le_one] at h2

/-- One angular component. -/
theorem diffAngle_near {A B P Q : Mat3} {e f : ℝ} (hA : ∀ i j, Rep (A i j)) (hB : ∀ i j, Rep (B i j))
    (hP : ∀ i j, |P i j| ≤ 1) (hQ : ∀ i j, |Q i j| ≤ 1) (h1 : ∀ i j, |A i j - P i j| ≤ e) (h2 : ∀ i j, |B i j - Q i j| ≤ f)
    (he : e ≤ 1 / 8) (hf : f ≤ 1 / 8) (i j : Fin 3) :
    ∃ x, diffAngle (fin (A i 0)) (fin (A i 1)) (fin (A i 2)) (fin (B j 0)) (fin (B j 1)) (fin (B j 2))
        (fin (A j 0)) (fin (A j 1)) (fin (A j 2)) (fin (B i 0)) (fin (B i 1)) (fin (B i 2)) = fin x ∧ Rep x ∧
      |x - ((Q * Pᵀ) j i - (Q * Pᵀ) i j) / 2| ≤ 3 * (e + f + e * f) + 2 ^ (-19 : ℤ) := by
  have T := fun k => diff_term (hA i k) (hB j k) (hA j k) (hB i k) (h1 i k) (h2 j k) (h1 j k) (h2 i k) (hP i k) (hQ j k) (hP j k)
    (hQ i k) he hf
  obtain ⟨x1, x2, x3⟩ := T 0
  obtain ⟨y1, y2, y3⟩ := T 1
  obtain ⟨z1, z2, z3⟩ := T 2
  have xy := (abs_add_le (A i 0 * B j 0 - A j 0 * B i 0) (A i 1 * B j 1 - A j 1 * B i 1)).trans (add_le_add x2 y2)
  have xyz := (abs_add_le (A i 0 * B j 0 - A j 0 * B i 0 + (A i 1 * B j 1 - A j 1 * B i 1)) (A i 2 * B j 2 - A j 2 * B i 2)).trans
    (add_le_add xy z2)
  have n1 := Near.add x1 y1 xy (18.1 / 16777216) (by norm_num) (by norm_num)
  have n2 := Near.add n1 z1 xyz (33.2 / 16777216) (by norm_num) (by norm_num)
  have hh : Rep (1 / 2) := ⟨1, -1, by norm_num, by norm_num, by norm_num, by norm_num⟩
  obtain ⟨x, r1, r2, r3⟩ := Near.mul (Near.of_rep hh) n2 (M := 1 / 2) (by norm_num) xyz (22 / 16777216) (by norm_num)
    (by norm_num)
  refine ⟨x, r1, r2, ?_⟩
  rw [Matrix.mul_apply, Matrix.mul_apply, Fin.sum_univ_three, Fin.sum_univ_three]
  simp only [transpose_apply]
  rw [show (2 : ℝ) ^ (-19 : ℤ) = 32 / 16777216 by norm_num]
  obtain ⟨x4, x5⟩ := abs_le.1 x3
  obtain ⟨y4, y5⟩ := abs_le.1 y3
  obtain ⟨z4, z5⟩ := abs_le.1 z3
  obtain ⟨r4, r5⟩ := abs_le.1 r3
  rw [abs_le]
  constructor <;> linarith

/-- The translations are subtracted; the angular part is near the sine of the angle times the axis of the rotation
from the first orientation to the second. -/
theorem C111_diff (A B P Q : Mat3) (s t : Vec3) (n : Vec3) (a e f : ℝ) (hA : ∀ i j, Rep (A i j)) (hB : ∀ i j, Rep (B i j))
    (hP : Pᵀ * P = 1) (hQ : Q = rodrigues n a * P) (hn : lenSq n = 1) (h1 : ∀ i j, |A i j - P i j| ≤ e)
    (h2 : ∀ i j, |B i j - Q i j| ≤ f) (he : e ≤ 1 / 8) (hf : f ≤ 1 / 8) (hs : ∀ i, |s i| ≤ 2 ^ 126) (ht : ∀ i, |t i| ≤ 2 ^ 126) :
    ∃ x w, position6DFromTransformDiff (Transform.ofMat A s) (Transform.ofMat B t) = Position6D.ofParts x w ∧
      (∀ i, x i = rnd (t i - s i)) ∧ (∀ i, Rep (w i)) ∧
      ∀ i, |w i - Real.sin a * n i| ≤ 3 * (e + f + e * f) + 2 ^ (-19 : ℤ) := by
  have hR : (rodrigues n a)ᵀ * rodrigues n a = 1 := (rodrigues_isRot hn a).1
  have hQQ : Qᵀ * Q = 1 := by
    rw [hQ, transpose_mul, Matrix.mul_assoc, ← Matrix.mul_assoc _ (rodrigues n a) P, hR, Matrix.one_mul, hP]
  have key : Q * Pᵀ = rodrigues n a := by
    rw [hQ, Matrix.mul_assoc, mul_eq_one_comm.1 hP, Matrix.mul_one]
  have N := diffAngle_near hA hB (fun i j => orth_entry_le hP i j) (fun i j => orth_entry_le hQQ i j) h1 h2 he hf
  obtain ⟨x, x1, x2, x3⟩ := N 1 2
  obtain ⟨y, y1, y2, y3⟩ := N 2 0
  obtain ⟨z, z1, z2, z3⟩ := N 0 1
  rw [key] at x3 y3 z3
  rw [vec3_eta n, rodrigues_coord] at x3 y3 z3
  simp at x3 y3 z3
  have d : ∀ i, sub (fin (t i)) (fin (s i)) = fin (rnd (t i - s i)) := fun i => by
    refine sub_fin ((abs_sub _ _).trans ?_)
    have h := hs i
    have k := ht i
    norm_num at h k ⊢
    linarith
  refine ⟨fun i => rnd (t i - s i), ![x, y, z], ?_, fun i => rfl, ?_, ?_⟩
  · simp only [position6DFromTransformDiff, Transform.ofMat, Rotation.ofMat, x1, y1, z1, d]
    rfl
  · intro i
    fin_cases i
    · exact x2
    · exact y2
    · exact z2
  · intro i
    fin_cases i
    · simpa using x3
    · simpa using y3
    · simpa using z3

/-- Non-trivial case: the target is the first orientation after a quarter turn about the vertical axis, whose sine is one. -/
example : (∀ i j, Rep ((!![0, -1, 0; 1, 0, 0; 0, 0, 1] : Mat3) i j)) ∧ (1 : Mat3)ᵀ * 1 = 1 ∧ lenSq ![0, 0, 1] = 1 ∧
    (!![0, -1, 0; 1, 0, 0; 0, 0, 1] : Mat3) = rodrigues ![0, 0, 1] (Real.pi / 2) * 1 ∧ Real.sin (Real.pi / 2) = 1 := by
  refine ⟨?_, by simp, by simp [lenSq, dotProduct, Fin.sum_univ_three], ?_, Real.sin_pi_div_two⟩
  · intro i j
    have m : Rep (-1) := ⟨-1, 0, by norm_num, by norm_num, by norm_num, by simp⟩
    fin_cases i <;> fin_cases j <;> first | exact Rep.zero | exact Rep.one | exact m
  · rw [Matrix.mul_one, rodrigues_coord, Real.sin_pi_div_two, Real.cos_pi_div_two]
    ext i j
    fin_cases i <;> fin_cases j <;> simp

/-- The difference of a transform with itself is exactly zero. -/
theorem C111_diff_self (A : Mat3) (t : Vec3) (hA : ∀ i j, |A i j| ≤ 2 ^ 60) :
    position6DFromTransformDiff (Transform.ofMat A t) (Transform.ofMat A t) = Position6D.ofParts 0 0 := by
  have z : round 0 = fin 0 := round_rep Rep.zero
  have s0 : ∀ x, sub (fin x) (fin x) = fin 0 := fun x => by rw [sub, neg, add, add_neg_cancel, z]
  have p : ∀ i j k l, mul (fin (A i j)) (fin (A k l)) = fin (rnd (A i j * A k l)) := fun i j k l => by
    refine mul_fin ?_
    rw [abs_mul]
    exact (mul_le_mul (hA i j) (hA k l) (abs_nonneg _) (by norm_num)).trans (by norm_num)
  have q : ∀ i j, diffAngle (fin (A i 0)) (fin (A i 1)) (fin (A i 2)) (fin (A j 0)) (fin (A j 1)) (fin (A j 2))
        (fin (A j 0)) (fin (A j 1)) (fin (A j 2)) (fin (A i 0)) (fin (A i 1)) (fin (A i 2)) = fin 0 := fun i j => by
    have c : ∀ k, sub (mul (fin (A i k)) (fin (A j k))) (mul (fin (A j k)) (fin (A i k))) = fin 0 := fun k => by
      rw [p, p, mul_comm (A j k), s0]
    rw [diffAngle, c, c, c]
    simp [add, mul, z]
  simp only [position6DFromTransformDiff, Transform.ofMat, Rotation.ofMat, s0, q]
  rfl

/-- Non-trivial case: a matrix which is not even a rotation, with a large entry. -/
example : ∀ i j, |(!![3, 0, 0; 0, 2 ^ 60, 0; 1, 0, 1] : Mat3) i j| ≤ 2 ^ 60 := by
  intro i j
  fin_cases i <;> fin_cases j <;> simp <;> norm_num

end AlMath.F32
