import Verif.Spec.Frobenius
import Mathlib.Analysis.InnerProductSpace.PiL2

/-!
Norms of 3-vectors and of 3x3 matrices.
-/

namespace AlMath.Spec

open Matrix

theorem vlen_nonneg (v : Vec3) : 0 ≤ vlen v := Real.sqrt_nonneg _

theorem fro_nonneg (A : Mat3) : 0 ≤ fro A := Real.sqrt_nonneg _

theorem vlen_sq (v : Vec3) : vlen v ^ 2 = ∑ i, v i ^ 2 :=
  Real.sq_sqrt (Finset.sum_nonneg fun _ _ => sq_nonneg _)

theorem fro_sq (A : Mat3) : fro A ^ 2 = ∑ i, ∑ j, A i j ^ 2 :=
  Real.sq_sqrt (Finset.sum_nonneg fun _ _ => Finset.sum_nonneg fun _ _ => sq_nonneg _)

theorem vlen_eq_norm (v : Vec3) : vlen v = ‖(WithLp.toLp 2 v : EuclideanSpace ℝ (Fin 3))‖ := by
  rw [EuclideanSpace.norm_eq, vlen]
  simp

theorem fro_eq_norm (A : Mat3) :
    fro A = ‖(WithLp.toLp 2 (fun p : Fin 3 × Fin 3 => A p.1 p.2) : EuclideanSpace ℝ (Fin 3 × Fin 3))‖ := by
  rw [EuclideanSpace.norm_eq, fro, Fintype.sum_prod_type]
  simp

theorem vlen_add (v w : Vec3) : vlen (v + w) ≤ vlen v + vlen w := by
  rw [vlen_eq_norm, vlen_eq_norm, vlen_eq_norm, WithLp.toLp_add]
  exact norm_add_le _ _

theorem fro_add (A B : Mat3) : fro (A + B) ≤ fro A + fro B := by
  rw [fro_eq_norm, fro_eq_norm, fro_eq_norm]
  exact norm_add_le (WithLp.toLp 2 (fun p : Fin 3 × Fin 3 => A p.1 p.2) : EuclideanSpace ℝ (Fin 3 × Fin 3))
    (WithLp.toLp 2 (fun p : Fin 3 × Fin 3 => B p.1 p.2) : EuclideanSpace ℝ (Fin 3 × Fin 3))

theorem vlen_neg (v : Vec3) : vlen (-v) = vlen v := by simp [vlen]

theorem fro_neg (A : Mat3) : fro (-A) = fro A := by simp [fro]

theorem sq_le_of {a b : ℝ} (hb : 0 ≤ b) (h : a ^ 2 ≤ b ^ 2) : a ≤ b :=
  (le_abs_self a).trans (abs_le_of_sq_le_sq h hb)

theorem vlen_mulVec (A : Mat3) (v : Vec3) : vlen (A *ᵥ v) ≤ fro A * vlen v := by
  refine sq_le_of (mul_nonneg (fro_nonneg _) (vlen_nonneg _)) ?_
  rw [mul_pow, vlen_sq, vlen_sq, fro_sq, Finset.sum_mul]
  refine Finset.sum_le_sum fun i _ => ?_
  exact Finset.sum_mul_sq_le_sq_mul_sq Finset.univ (A i) v

theorem fro_mul (A B : Mat3) : fro (A * B) ≤ fro A * fro B := by
  refine sq_le_of (mul_nonneg (fro_nonneg _) (fro_nonneg _)) ?_
  rw [mul_pow, fro_sq, fro_sq, fro_sq, Finset.sum_mul]
  refine Finset.sum_le_sum fun i _ => ?_
  rw [Finset.sum_comm (f := fun k j => B k j ^ 2), Finset.mul_sum]
  refine Finset.sum_le_sum fun j _ => ?_
  exact Finset.sum_mul_sq_le_sq_mul_sq Finset.univ (A i) (fun k => B k j)

theorem fro_sq_trace (A : Mat3) : fro A ^ 2 = (Aᵀ * A).trace := by
  rw [fro_sq]
  simp [Matrix.trace, Matrix.mul_apply, Fin.sum_univ_three]
  ring

theorem fro_transpose (A : Mat3) : fro Aᵀ = fro A := by
  rw [fro, fro, Finset.sum_comm]
  rfl

theorem fro_rot_mul {Q : Mat3} (h : Qᵀ * Q = 1) (A : Mat3) : fro (Q * A) = fro A := by
  have : fro (Q * A) ^ 2 = fro A ^ 2 := by
    rw [fro_sq_trace, fro_sq_trace, Matrix.transpose_mul, Matrix.mul_assoc, ← Matrix.mul_assoc Qᵀ, h, Matrix.one_mul]
  exact le_antisymm (sq_le_of (fro_nonneg _) this.le) (sq_le_of (fro_nonneg _) this.ge)

theorem fro_mul_rot {Q : Mat3} (h : Qᵀ * Q = 1) (A : Mat3) : fro (A * Q) = fro A := by
  rw [← fro_transpose, Matrix.transpose_mul, fro_rot_mul (Q := Qᵀ), fro_transpose]
  rw [Matrix.transpose_transpose]
  exact mul_eq_one_comm.1 h

theorem vlen_rot {Q : Mat3} (h : Qᵀ * Q = 1) (v : Vec3) : vlen (Q *ᵥ v) = vlen v := by
  have key : ∀ w : Vec3, vlen w ^ 2 = w ⬝ᵥ w := by
    intro w
    rw [vlen_sq]
    simp [dotProduct, pow_two]
  have : vlen (Q *ᵥ v) ^ 2 = vlen v ^ 2 := by
    rw [key, key, Matrix.dotProduct_mulVec, Matrix.vecMul_mulVec, h, Matrix.vecMul_one]
  exact le_antisymm (sq_le_of (vlen_nonneg _) this.le) (sq_le_of (vlen_nonneg _) this.ge)

theorem fro_rot {Q : Mat3} (h : Qᵀ * Q = 1) : fro Q ^ 2 = 3 := by
  rw [fro_sq_trace, h]
  simp

theorem fro_rot_le {Q : Mat3} (h : Qᵀ * Q = 1) : fro Q ≤ 7 / 4 := by
  refine sq_le_of (by norm_num) ?_
  rw [fro_rot h]
  norm_num

theorem abs_le_fro (A : Mat3) (i j : Fin 3) : |A i j| ≤ fro A := by
  refine sq_le_of (fro_nonneg _) ?_
  rw [fro_sq, sq_abs]
  calc A i j ^ 2 ≤ ∑ j, A i j ^ 2 := Finset.single_le_sum (f := fun j => A i j ^ 2) (fun _ _ => sq_nonneg _) (Finset.mem_univ j)
    _ ≤ _ := Finset.single_le_sum (f := fun i => ∑ j, A i j ^ 2)
      (fun _ _ => Finset.sum_nonneg fun _ _ => sq_nonneg _) (Finset.mem_univ i)

theorem abs_le_vlen (v : Vec3) (i : Fin 3) : |v i| ≤ vlen v := by
  refine sq_le_of (vlen_nonneg _) ?_
  rw [vlen_sq, sq_abs]
  exact Finset.single_le_sum (f := fun i => v i ^ 2) (fun _ _ => sq_nonneg _) (Finset.mem_univ i)

theorem fro_mono {A B : Mat3} (h : ∀ i j, |A i j| ≤ |B i j|) : fro A ≤ fro B :=
  Real.sqrt_le_sqrt (Finset.sum_le_sum fun i _ => Finset.sum_le_sum fun j _ => sq_le_sq.2 (h i j))

theorem vlen_mono {v w : Vec3} (h : ∀ i, |v i| ≤ |w i|) : vlen v ≤ vlen w :=
  Real.sqrt_le_sqrt (Finset.sum_le_sum fun i _ => sq_le_sq.2 (h i))

theorem fro_abs (A : Mat3) : fro (A.map fun x => |x|) = fro A := by
  simp [fro]

theorem vlen_abs (v : Vec3) : vlen (fun i => |v i|) = vlen v := by
  simp [vlen]

theorem fro_const (c : ℝ) (hc : 0 ≤ c) : fro (Matrix.of fun _ _ => c) = 3 * c := by
  unfold fro
  simp only [Matrix.of_apply, Fin.sum_univ_three]
  rw [show c ^ 2 + c ^ 2 + c ^ 2 + (c ^ 2 + c ^ 2 + c ^ 2) + (c ^ 2 + c ^ 2 + c ^ 2) = (3 * c) ^ 2 by ring]
  exact Real.sqrt_sq (by positivity)

theorem vlen_const (c : ℝ) (hc : 0 ≤ c) : vlen (fun _ => c) ≤ 2 * c := by
  rw [vlen]
  simp only [Fin.sum_univ_three]
  refine Real.sqrt_le_iff.2 ⟨by positivity, ?_⟩
  nlinarith

theorem fro_smul (c : ℝ) (hc : 0 ≤ c) (A : Mat3) : fro (c • A) = c * fro A := by
  have : ∑ i, ∑ j, (c • A) i j ^ 2 = c ^ 2 * ∑ i, ∑ j, A i j ^ 2 := by
    simp [mul_pow, Finset.mul_sum]
  rw [fro, fro, this, Real.sqrt_mul (sq_nonneg c), Real.sqrt_sq hc]

theorem vlen_smul (c : ℝ) (hc : 0 ≤ c) (v : Vec3) : vlen (c • v) = c * vlen v := by
  have : ∑ i, (c • v) i ^ 2 = c ^ 2 * ∑ i, v i ^ 2 := by
    simp [mul_pow, Finset.mul_sum]
  rw [vlen, vlen, this, Real.sqrt_mul (sq_nonneg c), Real.sqrt_sq hc]

/-- An error given entry by entry, relative to the product of magnitudes. -/
theorem fro_err {C A B : Mat3} {u η : ℝ} (hu : 0 ≤ u) (hη : 0 ≤ η)
    (h : ∀ i j, |C i j| ≤ u * (|A i 0| * |B 0 j| + |A i 1| * |B 1 j| + |A i 2| * |B 2 j|) + η) :
    fro C ≤ u * (fro A * fro B) + 3 * η := by
  have h1 : fro C ≤ fro (u • ((A.map fun x => |x|) * (B.map fun x => |x|)) + Matrix.of fun _ _ => η) := by
    refine fro_mono fun i j => ?_
    have h2 : (u • ((A.map fun x => |x|) * (B.map fun x => |x|)) + Matrix.of fun _ _ => η : Mat3) i j =
        u * (|A i 0| * |B 0 j| + |A i 1| * |B 1 j| + |A i 2| * |B 2 j|) + η := by
      simp [Matrix.mul_apply, Fin.sum_univ_three]
    rw [h2, abs_of_nonneg (a := u * _ + η) (by positivity)]
    exact h i j
  refine h1.trans ((fro_add _ _).trans ?_)
  rw [fro_smul _ hu, fro_const _ hη]
  have := fro_mul (A.map fun x => |x|) (B.map fun x => |x|)
  rw [fro_abs, fro_abs] at this
  gcongr

/-- The same for a vector. -/
theorem vlen_err {w : Vec3} {A : Mat3} {v t : Vec3} {u u' η : ℝ} (hu : 0 ≤ u) (hu' : 0 ≤ u') (hη : 0 ≤ η)
    (h : ∀ i, |w i| ≤ u * (|A i 0| * |v 0| + |A i 1| * |v 1| + |A i 2| * |v 2|) + u' * |t i| + η) :
    vlen w ≤ u * (fro A * vlen v) + u' * vlen t + 2 * η := by
  have h1 : vlen w ≤ vlen (u • ((A.map fun x => |x|) *ᵥ (fun i => |v i|)) + u' • (fun i => |t i|) + fun _ => η) := by
    refine vlen_mono fun i => ?_
    have h2 : (u • ((A.map fun x => |x|) *ᵥ (fun i => |v i|)) + u' • (fun i => |t i|) + fun _ => η : Vec3) i =
        u * (|A i 0| * |v 0| + |A i 1| * |v 1| + |A i 2| * |v 2|) + u' * |t i| + η := by
      simp [Matrix.mulVec, dotProduct, Fin.sum_univ_three]
    rw [h2, abs_of_nonneg (a := u * _ + _ + η) (by positivity)]
    exact h i
  refine h1.trans ((vlen_add _ _).trans ?_)
  refine add_le_add ((vlen_add _ _).trans ?_) (vlen_const _ hη)
  rw [vlen_smul _ hu, vlen_smul _ hu', vlen_abs]
  have := vlen_mulVec (A.map fun x => |x|) (fun i => |v i|)
  rw [fro_abs, vlen_abs] at this
  gcongr

end AlMath.Spec
