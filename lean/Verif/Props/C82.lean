import Verif.Props.C77
import Verif.Props.C79

/-!
C82: distances, rotated vectors, orthogonality and inverses in single precision.
-/

namespace AlMath.F32

open AlMath.Spec Matrix

theorem len_eq_vlen (v : Vec3) : len (v 0) (v 1) (v 2) = vlen v := by
  rw [len, vlen, Fin.sum_univ_three]

/-- The length of a vector whose components are relatively accurate. -/
theorem vlen_rel {u v : Vec3} {δ : ℝ} (hδ : 0 ≤ δ) (h : ∀ i, |u i - v i| ≤ δ * |v i|) : vlen (u - v) ≤ δ * vlen v := by
  rw [← vlen_smul δ hδ]
  refine vlen_mono fun i => ?_
  rw [Pi.sub_apply, Pi.smul_apply, smul_eq_mul, abs_mul, abs_of_nonneg hδ]
  exact h i

theorem abs_vlen_sub (u v : Vec3) : |vlen u - vlen v| ≤ vlen (u - v) := by
  have h1 := vlen_add (u - v) v
  have h2 := vlen_add (v - u) u
  rw [sub_add_cancel] at h1 h2
  have h3 : vlen (v - u) = vlen (u - v) := by rw [← vlen_neg, neg_sub]
  rw [abs_le]
  constructor <;> linarith

/-- The distance of two points that are neither very close to each other nor far away. -/
theorem C82_distance (v w : Vec3) (hv : ∀ i, Rep (v i)) (hw : ∀ i, Rep (w i)) (hl : 2 ^ (-59 : ℤ) ≤ vlen (v - w))
    (hu : vlen (v - w) ≤ 2 ^ 61) :
    ∃ d, Position3D.distance (Position3D.ofVec v) (Position3D.ofVec w) = fin d ∧ Rep d ∧
      |d - vlen (v - w)| ≤ 2 ^ (-19 : ℤ) * vlen (v - w) := by
  have hs : ∀ i, |v i - w i| ≤ 2 ^ 127 := fun i =>
    ((abs_le_vlen (v - w) i).trans hu).trans (by norm_num)
  let u : Vec3 := fun i => rnd (v i - w i)
  have hd : Position3D.distance (Position3D.ofVec v) (Position3D.ofVec w) = Position3D.norm ⟨fin (u 0), fin (u 1), fin (u 2)⟩ := by
    rw [Position3D.distance, Position3D.distanceSquared, Position3D.norm]
    simp only [Position3D.ofVec, sub_fin (hs _), u]
  have he : vlen (u - (v - w)) ≤ 2 ^ (-24 : ℤ) * vlen (v - w) := by
    refine vlen_rel (by positivity) fun i => ?_
    have := rnd_add (hv i).grid (hw i).neg.grid
    rwa [← sub_eq_add_neg] at this
  have hn := abs_le.1 ((abs_vlen_sub u (v - w)).trans he)
  have hN := vlen_nonneg (v - w)
  obtain ⟨d, h1, h2, h3⟩ := C77_norm (u 0) (u 1) (u 2)
    (by
      rw [len_eq_vlen]
      have h60 : (2 : ℝ) ^ (-60 : ℤ) = 2 ^ (-59 : ℤ) / 2 := by norm_num
      rw [h60]
      have := hn.1
      generalize (2 : ℝ) ^ (-59 : ℤ) = b at *
      norm_num at this
      linarith)
    (by
      rw [len_eq_vlen]
      have := hn.2
      norm_num at this hu ⊢
      linarith)
  rw [len_eq_vlen] at h3
  refine ⟨d, hd.trans h1, h2, ?_⟩
  have q := abs_add_le (d - vlen u) (vlen u - vlen (v - w))
  rw [sub_add_sub_cancel] at q
  have h4 := (abs_vlen_sub u (v - w)).trans he
  have h5 := hn.2
  norm_num at h3 h4 h5 ⊢
  linarith

theorem rnd_round_neg (x : ℝ) : round (-x) = neg (round x) := by
  rw [round, round, rnd_neg]
  have h0 : (0 : ℝ) < 2 ^ 128 := by positivity
  by_cases h1 : 2 ^ 128 ≤ rnd x
  · rw [if_neg (by linarith), if_pos (by linarith), if_pos h1, neg]
  · by_cases h2 : rnd x ≤ -2 ^ 128
    · rw [if_pos (by linarith), if_neg h1, if_pos h2, neg]
    · rw [if_neg (by linarith), if_neg (by linarith), if_neg h1, if_neg h2, neg]

theorem sub_swap (a b : F32) : sub b a = neg (sub a b) := by
  cases a <;> cases b <;> simp [sub, neg, add]
  show round _ = neg (round _)
  rw [← rnd_round_neg]
  congr 1
  ring

theorem neg_mul_neg (a : F32) : mul (neg a) (neg a) = mul a a := by
  cases a <;> simp [mul, neg]

/-- The distance does not depend on the order of the points, whatever they are. -/
theorem C82_symm (p q : Position3D) : Position3D.distance p q = Position3D.distance q p := by
  rw [Position3D.distance, Position3D.distance, Position3D.distanceSquared, Position3D.distanceSquared,
    dot, dot, sub_swap p.x q.x, sub_swap p.y q.y, sub_swap p.z q.z, neg_mul_neg, neg_mul_neg, neg_mul_neg]

/-- It is 0 between a finite point and itself. -/
theorem C82_self (v : Vec3) : Position3D.distance (Position3D.ofVec v) (Position3D.ofVec v) = fin 0 := by
  have h0 : ∀ x : ℝ, sub (fin x) (fin x) = fin 0 := by
    intro x
    rw [sub_fin (by simp), sub_self, rnd_zero]
  have r0 : round 0 = fin 0 := round_rep Rep.zero
  simp only [Position3D.distance, Position3D.distanceSquared, Position3D.ofVec, h0, dot, mul, add, mul_zero, add_zero,
    r0, sqrt, lt_irrefl, if_false, Real.sqrt_zero]

/-- The distance of transforms is the one of their origins. -/
theorem C82_transform_distance (A B : Mat3) (v w : Vec3) (hv : ∀ i, Rep (v i)) (hw : ∀ i, Rep (w i))
    (hl : 2 ^ (-59 : ℤ) ≤ vlen (v - w)) (hu : vlen (v - w) ≤ 2 ^ 61) :
    ∃ d, Transform.distance (Transform.ofMat A v) (Transform.ofMat B w) = fin d ∧
      |d - vlen (v - w)| ≤ 2 ^ (-19 : ℤ) * vlen (v - w) := by
  obtain ⟨d, h1, -, h2⟩ := C82_distance v w hv hw hl hu
  exact ⟨d, h1, h2⟩

/-- A matrix of moderate size times a vector. -/
theorem dot_ofVec {A : Mat3} {v : Vec3} (hA : fro A ≤ 11 / 4) (hv : vlen v ≤ 2 ^ 119) :
    ∃ w : Vec3, (∀ i, dot (fin (A i 0)) (fin (A i 1)) (fin (A i 2)) (fin (v 0)) (fin (v 1)) (fin (v 2)) = fin (w i)) ∧
      (∀ i, Rep (w i)) ∧ vlen (w - A *ᵥ v) ≤ 2 ^ (-20 : ℤ) * vlen v + 2 ^ (-147 : ℤ) := by
  have hb : ∀ i, |A i 0| * |v 0| + |A i 1| * |v 1| + |A i 2| * |v 2| ≤ 2 ^ 125 := by
    intro i
    have key : ∀ k, |A i k| * |v k| ≤ 11 / 4 * 2 ^ 119 := fun k =>
      mul_le_mul ((abs_le_fro A i k).trans hA) ((abs_le_vlen v k).trans hv) (abs_nonneg _) (by norm_num)
    have := key 0
    have := key 1
    have := key 2
    have : (11 / 4 * 2 ^ 119 * 3 : ℝ) ≤ 2 ^ 125 := by norm_num
    linarith
  choose w hw hr he using fun i => dot_fin (hb i)
  refine ⟨w, hw, hr, ?_⟩
  have h1 := vlen_err (w := w - A *ᵥ v) (A := A) (v := v) (t := 0)
    (u := 2 ^ (-22 : ℤ)) (u' := 0) (η := 2 ^ (-148 : ℤ))
    (by positivity) le_rfl (by positivity) fun i => by
      have : (w - A *ᵥ v) i = w i - (A i 0 * v 0 + A i 1 * v 1 + A i 2 * v 2) := by
        simp [Matrix.mulVec, dotProduct, Fin.sum_univ_three]
      rw [this, zero_mul, add_zero]
      exact he i
  refine h1.trans ?_
  have h2 : fro A * vlen v ≤ 11 / 4 * vlen v := mul_le_mul_of_nonneg_right hA (vlen_nonneg _)
  have h3 : (2 : ℝ) * 2 ^ (-148 : ℤ) = 2 ^ (-147 : ℤ) := by norm_num
  have h4 := vlen_nonneg v
  rw [h3, zero_mul, add_zero]
  generalize (2 : ℝ) ^ (-147 : ℤ) = w at *
  generalize fro A * vlen v = x at *
  norm_num
  linarith

theorem fro_near {A P : Mat3} {e : ℝ} (hP : Pᵀ * P = 1) (hA : fro (A - P) ≤ e) (he : e ≤ 1) : fro A ≤ 11 / 4 := by
  have := fro_add (A - P) P
  rw [sub_add_cancel] at this
  linarith [fro_rot_le hP]

/-- The image of a vector by a matrix known to be near a rotation. -/
theorem C82_rotate (A P : Mat3) (v x : Vec3) (e g : ℝ) (hP : Pᵀ * P = 1) (hA : fro (A - P) ≤ e) (he : e ≤ 1)
    (hv : vlen (v - x) ≤ g) (hv' : vlen v ≤ 2 ^ 119) :
    ∃ w, Rotation.apply (Rotation.ofMat A) (Position3D.ofVec v) = Position3D.ofVec w ∧
      vlen (w - P *ᵥ x) ≤ e * vlen v + g + (2 ^ (-20 : ℤ) * vlen v + 2 ^ (-147 : ℤ)) := by
  obtain ⟨w, hw, -, hE⟩ := dot_ofVec (fro_near hP hA he) hv'
  refine ⟨w, ?_, ?_⟩
  · rw [Position3D.ofVec, Position3D.ofVec, ← hw 0, ← hw 1, ← hw 2]
    rfl
  have h1 : w - P *ᵥ x = (w - A *ᵥ v) + ((A - P) *ᵥ v + P *ᵥ (v - x)) := by
    rw [Matrix.sub_mulVec, Matrix.mulVec_sub]
    abel
  rw [h1]
  have h2 := vlen_add (w - A *ᵥ v) ((A - P) *ᵥ v + P *ᵥ (v - x))
  have h4 := vlen_add ((A - P) *ᵥ v) (P *ᵥ (v - x))
  rw [vlen_rot hP] at h4
  have h5 := vlen_mulVec (A - P) v
  have h6 : fro (A - P) * vlen v ≤ e * vlen v := mul_le_mul_of_nonneg_right hA (vlen_nonneg _)
  linarith

/-- So rotating keeps the length of a vector. -/
theorem C82_length (A P : Mat3) (v : Vec3) (e : ℝ) (hP : Pᵀ * P = 1) (hA : fro (A - P) ≤ e) (he : e ≤ 1)
    (hv : vlen v ≤ 2 ^ 119) :
    ∃ w, Rotation.apply (Rotation.ofMat A) (Position3D.ofVec v) = Position3D.ofVec w ∧
      |vlen w - vlen v| ≤ (e + 2 ^ (-20 : ℤ)) * vlen v + 2 ^ (-147 : ℤ) := by
  obtain ⟨w, h1, h2⟩ := C82_rotate A P v v e 0 hP hA he (by rw [sub_self, vlen]; simp) hv
  refine ⟨w, h1, ?_⟩
  have h3 := abs_vlen_sub w (P *ᵥ v)
  rw [vlen_rot hP] at h3
  linarith

/-- The magnitudes of the terms of a scalar product. -/
theorem terms_le (v w : Vec3) : |v 0| * |w 0| + |v 1| * |w 1| + |v 2| * |w 2| ≤ vlen v * vlen w := by
  refine sq_le_of (mul_nonneg (vlen_nonneg _) (vlen_nonneg _)) ?_
  rw [mul_pow, vlen_sq, vlen_sq, Fin.sum_univ_three, Fin.sum_univ_three, ← sq_abs (v 0), ← sq_abs (v 1), ← sq_abs (v 2),
    ← sq_abs (w 0), ← sq_abs (w 1), ← sq_abs (w 2)]
  generalize |v 0| = a
  generalize |v 1| = b
  generalize |v 2| = c
  generalize |w 0| = x
  generalize |w 1| = y
  generalize |w 2| = z
  linarith only [sq_nonneg (a * y - b * x), sq_nonneg (a * z - c * x), sq_nonneg (b * z - c * y),
    show (a ^ 2 + b ^ 2 + c ^ 2) * (x ^ 2 + y ^ 2 + z ^ 2) = (a * x + b * y + c * z) ^ 2 +
      (a * y - b * x) ^ 2 + (a * z - c * x) ^ 2 + (b * z - c * y) ^ 2 by ring]

theorem abs_dot_le (v w : Vec3) : |v ⬝ᵥ w| ≤ vlen v * vlen w := by
  refine le_trans ?_ (terms_le v w)
  simp only [dotProduct, Fin.sum_univ_three]
  rw [← abs_mul, ← abs_mul, ← abs_mul]
  exact (abs_add_le _ _).trans (add_le_add (abs_add_le _ _) le_rfl)

/-- The test of orthogonality decides correctly outside a margin relative to the product of the lengths. -/
theorem C82_isOrthogonal (v w : Vec3) (eps : ℝ) (h : vlen v * vlen w ≤ 2 ^ 125) :
    (|v ⬝ᵥ w| ≤ eps - (2 ^ (-22 : ℤ) * (vlen v * vlen w) + 2 ^ (-148 : ℤ)) →
      Position3D.isOrthogonal (Position3D.ofVec v) (Position3D.ofVec w) (fin eps)) ∧
    (Position3D.isOrthogonal (Position3D.ofVec v) (Position3D.ofVec w) (fin eps) →
      |v ⬝ᵥ w| ≤ eps + (2 ^ (-22 : ℤ) * (vlen v * vlen w) + 2 ^ (-148 : ℤ))) := by
  have ht := terms_le v w
  obtain ⟨d, hd, -, he⟩ := C77_dotProduct (v 0) (v 1) (v 2) (w 0) (w 1) (w 2) (ht.trans h)
  have hvw : v ⬝ᵥ w = v 0 * w 0 + v 1 * w 1 + v 2 * w 2 := by
    simp only [dotProduct, Fin.sum_univ_three]
  rw [← hvw] at he
  have h2 : 2 ^ (-22 : ℤ) * (|v 0| * |w 0| + |v 1| * |w 1| + |v 2| * |w 2|) ≤ 2 ^ (-22 : ℤ) * (vlen v * vlen w) :=
    mul_le_mul_of_nonneg_left ht (by positivity)
  have h3 := abs_sub_abs_le_abs_sub d (v ⬝ᵥ w)
  have h4 := abs_sub_abs_le_abs_sub (v ⬝ᵥ w) d
  rw [abs_sub_comm (v ⬝ᵥ w) d] at h4
  rw [Position3D.isOrthogonal, Position3D.ofVec, Position3D.ofVec, hd, abs, le_iff_fin]
  constructor <;> intro <;> linarith

/-- The cross product is orthogonal to its factors for the library, up to a margin relative to the lengths. -/
theorem C82_cross_orthogonal (v w : Vec3) (eps : ℝ) (hv : vlen v ≤ 2 ^ 40) (hw : vlen w ≤ 2 ^ 40)
    (he : 2 ^ (-19 : ℤ) * (vlen v ^ 2 * vlen w) + 2 ^ (-100 : ℤ) ≤ eps) :
    ∃ c, Position3D.crossProduct (Position3D.ofVec v) (Position3D.ofVec w) = Position3D.ofVec c ∧
      Position3D.isOrthogonal (Position3D.ofVec v) (Position3D.ofVec c) (fin eps) := by
  have hv0 := vlen_nonneg v
  have hw0 := vlen_nonneg w
  have key : ∀ i j, |v i| * |w j| ≤ vlen v * vlen w := fun i j =>
    mul_le_mul (abs_le_vlen v i) (abs_le_vlen w j) (abs_nonneg _) hv0
  have hvw : vlen v * vlen w ≤ 2 ^ 80 := by
    calc vlen v * vlen w ≤ 2 ^ 40 * 2 ^ 40 := mul_le_mul hv hw hw0 (by positivity)
      _ = 2 ^ 80 := by norm_num
  have hb : ∀ i j k l, |v i| * |w j| + |v k| * |w l| ≤ 2 * (vlen v * vlen w) := fun i j k l => by
    linarith [key i j, key k l]
  have h80 : (2 : ℝ) * 2 ^ 80 ≤ 2 ^ 125 := by norm_num
  obtain ⟨p, q, r, hc, k1, k2, k3⟩ := C77_crossProduct (v 0) (v 1) (v 2) (w 0) (w 1) (w 2)
    ((hb 1 2 2 1).trans (by linarith)) ((hb 2 0 0 2).trans (by linarith)) ((hb 0 1 1 0).trans (by linarith))
  let c₀ : Vec3 := ![v 1 * w 2 - v 2 * w 1, v 2 * w 0 - v 0 * w 2, v 0 * w 1 - v 1 * w 0]
  have hd : vlen (![p, q, r] - c₀) ≤ 2 ^ (-20 : ℤ) * (vlen v * vlen w) + 2 ^ (-147 : ℤ) := by
    have h0 : 0 ≤ vlen v * vlen w := mul_nonneg hv0 hw0
    have h1 : vlen (![p, q, r] - c₀) ≤ vlen (fun _ => 2 ^ (-22 : ℤ) * (2 * (vlen v * vlen w)) + 2 ^ (-148 : ℤ)) := by
      refine vlen_mono fun i => ?_
      rw [abs_of_nonneg (a := 2 ^ (-22 : ℤ) * _ + _) (by positivity)]
      have m : ∀ i j k l, 2 ^ (-22 : ℤ) * (|v i| * |w j| + |v k| * |w l|) ≤ 2 ^ (-22 : ℤ) * (2 * (vlen v * vlen w)) :=
        fun i j k l => mul_le_mul_of_nonneg_left (hb i j k l) (by positivity)
      fin_cases i
      · exact k1.trans (add_le_add (m _ _ _ _) le_rfl)
      · exact k2.trans (add_le_add (m _ _ _ _) le_rfl)
      · exact k3.trans (add_le_add (m _ _ _ _) le_rfl)
    refine h1.trans ((vlen_const _ (by positivity)).trans (le_of_eq ?_))
    rw [show (-20 : ℤ) = 2 + -22 by norm_num, show (-147 : ℤ) = 1 + -148 by norm_num, zpow_add₀ (by norm_num),
      zpow_add₀ (by norm_num)]
    ring
  have hc0 : vlen c₀ ≤ vlen v * vlen w := by
    refine sq_le_of (mul_nonneg hv0 hw0) ?_
    rw [mul_pow, vlen_sq, vlen_sq, vlen_sq, Fin.sum_univ_three, Fin.sum_univ_three, Fin.sum_univ_three]
    simp only [c₀, Matrix.cons_val_zero, Matrix.cons_val_one, Matrix.cons_val]
    linarith only [sq_nonneg (v 0 * w 0 + v 1 * w 1 + v 2 * w 2),
      show (v 0 ^ 2 + v 1 ^ 2 + v 2 ^ 2) * (w 0 ^ 2 + w 1 ^ 2 + w 2 ^ 2) = (v 0 * w 0 + v 1 * w 1 + v 2 * w 2) ^ 2 +
        ((v 1 * w 2 - v 2 * w 1) ^ 2 + (v 2 * w 0 - v 0 * w 2) ^ 2 + (v 0 * w 1 - v 1 * w 0) ^ 2) by ring]
  have hcl : vlen ![p, q, r] ≤ 2 * (vlen v * vlen w) + 2 ^ (-147 : ℤ) := by
    have h1 := vlen_add (![p, q, r] - c₀) c₀
    rw [sub_add_cancel] at h1
    have h0 : 0 ≤ vlen v * vlen w := mul_nonneg hv0 hw0
    generalize (2 : ℝ) ^ (-147 : ℤ) = m2 at *
    generalize vlen (![p, q, r] - c₀) = d at *
    norm_num at hd
    linarith
  refine ⟨![p, q, r], hc, (C82_isOrthogonal v ![p, q, r] eps ?_).1 ?_⟩
  · rw [show (2 : ℝ) ^ 125 = 2 ^ 40 * 2 ^ 85 by norm_num]
    exact mul_le_mul hv (hcl.trans (by norm_num at hvw ⊢; linarith)) (vlen_nonneg _) (by positivity)
  · have hz : v ⬝ᵥ c₀ = 0 := by
      simp only [c₀, dotProduct, Fin.sum_univ_three, Matrix.cons_val_zero, Matrix.cons_val_one, Matrix.cons_val_two,
        Matrix.head_cons, Matrix.tail_cons, Matrix.cons_val]
      ring
    have h1 : v ⬝ᵥ ![p, q, r] = v ⬝ᵥ (![p, q, r] - c₀) := by rw [dotProduct_sub, hz, sub_zero]
    rw [h1]
    have h2 := abs_dot_le v (![p, q, r] - c₀)
    have h3 := mul_le_mul_of_nonneg_left hd hv0
    have h4 := mul_le_mul_of_nonneg_left hcl hv0
    have h5 : vlen v * 2 ^ (-147 : ℤ) ≤ 2 ^ (-107 : ℤ) := by
      calc vlen v * 2 ^ (-147 : ℤ) ≤ 2 ^ 40 * 2 ^ (-147 : ℤ) := by gcongr
        _ = 2 ^ (-107 : ℤ) := by norm_num
    have h6 : (2 : ℝ) ^ (-107 : ℤ) * 2 + 2 ^ (-148 : ℤ) ≤ 2 ^ (-100 : ℤ) := by norm_num
    have h7 : 0 ≤ vlen v ^ 2 * vlen w := by positivity
    have h8 : vlen v * (vlen v * vlen w) = vlen v ^ 2 * vlen w := by ring
    have h9 : (0 : ℝ) < 2 ^ (-107 : ℤ) := two_zpow_pos _
    rw [mul_add, mul_left_comm, h8] at h3 h4
    generalize (2 : ℝ) ^ (-107 : ℤ) = m1 at *
    generalize (2 : ℝ) ^ (-147 : ℤ) = m2 at *
    generalize (2 : ℝ) ^ (-148 : ℤ) = m3 at *
    generalize (2 : ℝ) ^ (-100 : ℤ) = m4 at *
    generalize vlen v ^ 2 * vlen w = S at *
    generalize vlen v * vlen (![p, q, r] - c₀) = d at *
    generalize |v ⬝ᵥ (![p, q, r] - c₀)| = d' at *
    generalize vlen v * vlen ![p, q, r] = d'' at *
    norm_num at he h3 h4 ⊢
    linarith

/-- The inverse of a transform known up to `e` and `f`. -/
theorem C82_inverse (A P : Mat3) (v s : Vec3) (e f : ℝ) (hP : Pᵀ * P = 1) (hA : fro (A - P) ≤ e) (he : e ≤ 1)
    (hv : vlen (v - s) ≤ f) (hv' : vlen v ≤ 2 ^ 119) :
    ∃ w, Transform.inverse (Transform.ofMat A v) = Transform.ofMat Aᵀ w ∧ fro (Aᵀ - Pᵀ) ≤ e ∧
      (∀ i, Rep (w i)) ∧ vlen (w + Pᵀ *ᵥ s) ≤ e * vlen v + f + (2 ^ (-20 : ℤ) * vlen v + 2 ^ (-147 : ℤ)) := by
  have hP' : (Pᵀ)ᵀ * Pᵀ = 1 := by rw [transpose_transpose]; exact mul_eq_one_comm.1 hP
  have hA' : fro (Aᵀ - Pᵀ) ≤ e := by rwa [← transpose_sub, fro_transpose]
  obtain ⟨u, hu, hr, hE⟩ := dot_ofVec (fro_near hP' hA' he) hv'
  refine ⟨-u, ?_, hA', fun i => (hr i).neg, ?_⟩
  · simp only [transpose_apply] at hu
    simp only [Transform.inverse, Transform.ofMat, Rotation.ofMat, Rotation.transpose, hu, neg, transpose_apply,
      Pi.neg_apply]
  have h1 : -u + Pᵀ *ᵥ s = -((u - Aᵀ *ᵥ v) + ((Aᵀ - Pᵀ) *ᵥ v + Pᵀ *ᵥ (v - s))) := by
    rw [Matrix.sub_mulVec, Matrix.mulVec_sub]
    abel
  rw [h1, vlen_neg]
  have h2 := vlen_add (u - Aᵀ *ᵥ v) ((Aᵀ - Pᵀ) *ᵥ v + Pᵀ *ᵥ (v - s))
  have h4 := vlen_add ((Aᵀ - Pᵀ) *ᵥ v) (Pᵀ *ᵥ (v - s))
  rw [vlen_rot hP'] at h4
  have h5 := vlen_mulVec (Aᵀ - Pᵀ) v
  have h6 : fro (Aᵀ - Pᵀ) * vlen v ≤ e * vlen v := mul_le_mul_of_nonneg_right hA' (vlen_nonneg _)
  linarith

/-- The transform from one to another, both known up to errors. -/
theorem C82_diff (A B P Q : Mat3) (v w s t : Vec3) (e f e' f' L : ℝ) (hP : Pᵀ * P = 1) (hQ : Qᵀ * Q = 1)
    (hA : fro (A - P) ≤ e) (hB : fro (B - Q) ≤ e') (he : e ≤ 1) (he' : e' ≤ 1)
    (hv : vlen (v - s) ≤ f) (hw : vlen (w - t) ≤ f') (hvL : vlen v ≤ L) (hwL : vlen w ≤ L) (hL : L ≤ 2 ^ 117) :
    ∃ C u, Transform.diff (Transform.ofMat A v) (Transform.ofMat B w) = Transform.ofMat C u ∧
      fro (C - Pᵀ * Q) ≤ e + e' + e * e' + 2 ^ (-19 : ℤ) ∧
      vlen (u - Pᵀ *ᵥ (t - s)) ≤ (2 * e + 2 ^ (-18 : ℤ)) * L + f + f' + 2 ^ (-144 : ℤ) := by
  have hL0 : 0 ≤ L := (vlen_nonneg v).trans hvL
  have he0 : 0 ≤ e := (fro_nonneg _).trans hA
  have hL9 : (2 : ℝ) ^ 117 * 3 + 1 ≤ 2 ^ 119 := by norm_num
  have h17 : (2 : ℝ) ^ 117 ≤ 2 ^ 119 := by norm_num
  have hP' : (Pᵀ)ᵀ * Pᵀ = 1 := by rw [transpose_transpose]; exact mul_eq_one_comm.1 hP
  obtain ⟨x, hx, hA', hxr, hxe⟩ := C82_inverse A P v s e f hP hA he hv (hvL.trans (hL.trans h17))
  obtain ⟨x', hx', -, -, hxe'⟩ := C82_inverse A P v v e 0 hP hA he (by rw [sub_self, vlen]; simp)
    (hvL.trans (hL.trans h17))
  have hxx : x' = x := by
    rw [hx] at hx'
    injection hx' with _ h1 h2 h3
    injection h1 with h1
    injection h2 with h2
    injection h3 with h3
    funext i
    fin_cases i
    · exact h1.symm
    · exact h2.symm
    · exact h3.symm
  subst hxx
  have hxl : vlen x' ≤ 3 * L + 1 := by
    have h1 := vlen_add (x' + Pᵀ *ᵥ v) (-(Pᵀ *ᵥ v))
    rw [add_neg_cancel_right, vlen_neg, vlen_rot hP'] at h1
    have h2 : e * vlen v ≤ 1 * vlen v := mul_le_mul_of_nonneg_right he (vlen_nonneg _)
    have h3 := vlen_nonneg v
    have h4 : (2 : ℝ) ^ (-147 : ℤ) ≤ 1 := by norm_num
    generalize (2 : ℝ) ^ (-147 : ℤ) = m at *
    norm_num at hxe'
    linarith
  obtain ⟨C, hC, hCe⟩ := mul_near hP' hQ hA' hB he he'
  rw [← sub_neg_eq_add] at hxe
  obtain ⟨u, hu, hue⟩ := affine_near (t := x') (s := -(Pᵀ *ᵥ s)) hP' hA' he hw hxe
    (hwL.trans (hL.trans h17)) (hxl.trans (by linarith only [hL, hL9])) fun i => (hxr i).grid
  refine ⟨C, u, ?_, hCe, ?_⟩
  · rw [Transform.diff, hx, Transform.mul]
    simp only [Transform.ofMat]
    rw [hC]
    have h0 := hu 0
    have h1 := hu 1
    have h2 := hu 2
    simp only [Rotation.ofMat] at h0 h1 h2 ⊢
    rw [h0, h1, h2]
  · rw [mulVec_sub, sub_eq_add_neg (Pᵀ *ᵥ t)]
    refine hue.trans ?_
    have h1 : e * vlen w ≤ e * L := mul_le_mul_of_nonneg_left hwL he0
    have h2 : e * vlen v ≤ e * L := mul_le_mul_of_nonneg_left hvL he0
    have h3 : (2 : ℝ) ^ (-24 : ℤ) + 2 ^ (-146 : ℤ) + 2 ^ (-147 : ℤ) ≤ 2 ^ (-23 : ℤ) := by norm_num
    have hx2 : vlen x' ≤ 3 * L + 2 ^ (-147 : ℤ) := by
      have h1 := vlen_add (x' + Pᵀ *ᵥ v) (-(Pᵀ *ᵥ v))
      rw [add_neg_cancel_right, vlen_neg, vlen_rot hP'] at h1
      have h2 : e * vlen v ≤ 1 * vlen v := mul_le_mul_of_nonneg_right he (vlen_nonneg _)
      have h3 := vlen_nonneg v
      generalize (2 : ℝ) ^ (-147 : ℤ) = m at *
      norm_num at hxe'
      linarith
    have m1 : (2 : ℝ) ^ (-146 : ℤ) = 2 * 2 ^ (-147 : ℤ) := by norm_num
    have m2 : (2 : ℝ) ^ (-144 : ℤ) = 8 * 2 ^ (-147 : ℤ) := by norm_num
    have m3 : (0 : ℝ) < 2 ^ (-147 : ℤ) := two_zpow_pos _
    rw [m1, m2]
    rw [m1] at h3
    have h4 := vlen_nonneg v
    generalize (2 : ℝ) ^ (-147 : ℤ) = m at *
    norm_num
    linarith

/-- In particular from a transform to itself: the identity. -/
theorem C82_diff_self (A P : Mat3) (v : Vec3) (e : ℝ) (hP : Pᵀ * P = 1) (hA : fro (A - P) ≤ e) (he : e ≤ 1)
    (hv : vlen v ≤ 2 ^ 117) :
    ∃ C u, Transform.diff (Transform.ofMat A v) (Transform.ofMat A v) = Transform.ofMat C u ∧
      fro (C - 1) ≤ 2 * e + e ^ 2 + 2 ^ (-19 : ℤ) ∧
      vlen u ≤ (2 * e + 2 ^ (-18 : ℤ)) * vlen v + 2 ^ (-144 : ℤ) := by
  have h0 : vlen (v - v) ≤ 0 := by rw [sub_self, vlen]; simp
  obtain ⟨C, u, h1, h2, h3⟩ := C82_diff A A P P v v v v e 0 e 0 (vlen v) hP hP hA hA he he h0 h0 le_rfl le_rfl hv
  rw [hP] at h2
  rw [sub_self, mulVec_zero, sub_zero] at h3
  exact ⟨C, u, h1, by linarith, by linarith⟩

/-! ### Examples -/

example : (∀ i, Rep ((![3, 4, 0] : Vec3) i)) ∧ 2 ^ (-59 : ℤ) ≤ vlen (![3, 4, 0] - 0) ∧ vlen (![3, 4, 0] - 0) ≤ 2 ^ 61 := by
  refine ⟨?_, ?_⟩
  · intro i
    fin_cases i
    · exact ⟨3, 0, by norm_num, by norm_num, by norm_num, by simp⟩
    · exact ⟨4, 0, by norm_num, by norm_num, by norm_num, by simp⟩
    · exact Rep.zero
  · have : vlen (![3, 4, 0] - 0) = 5 := by
      rw [sub_zero, vlen, Fin.sum_univ_three]
      simp only [Matrix.cons_val_zero, Matrix.cons_val_one, Matrix.cons_val]
      rw [show (3 : ℝ) ^ 2 + 4 ^ 2 + 0 ^ 2 = 5 ^ 2 by norm_num]
      exact Real.sqrt_sq (by norm_num)
    rw [this]
    norm_num

/-- A quarter turn and a vector of length 1, without error. -/
example : (!![0, -1, 0; 1, 0, 0; 0, 0, 1] : Mat3)ᵀ * !![0, -1, 0; 1, 0, 0; 0, 0, 1] = 1 ∧
    fro ((!![0, -1, 0; 1, 0, 0; 0, 0, 1] : Mat3) - !![0, -1, 0; 1, 0, 0; 0, 0, 1]) ≤ 2 ^ (-19 : ℤ) ∧
    vlen ![1, 0, 0] ≤ 2 ^ 117 := by
  refine ⟨?_, ?_, ?_⟩
  · ext i j
    fin_cases i <;> fin_cases j <;> simp [Matrix.mul_apply, Fin.sum_univ_three]
  · rw [sub_self, fro]
    simp
  · simp [vlen, Fin.sum_univ_three]
    norm_num

end AlMath.F32
