import Verif.Lemmas.FloatConvert
import Verif.Props.C86

/-!
C109: conversions between angles, matrices and quaternions in single precision.
-/

namespace AlMath.F32

open AlMath.Spec Matrix Quaternion

open Classical in
/-- quaternionFromTransform of a matrix within `e` of the rotation of the unit quaternion `w + v`, `0 ≤ w`, unless the
angle is so small that the errors matter: up to the sign of the vector part, which is wrong at most for half turns, the
vector part is off by at most `13 (e + 2^-21) / |v|`, and the square of the scalar part by at most `e + 2^-21`. -/
theorem C109_matrix (A : Mat3) (hA : ∀ i j, Rep (A i j)) (t : Vec3) (w : ℝ) (v : Vec3) (hw : 0 ≤ w) (hu : ‖qv w v‖ = 1)
    (e : ℝ) (he : e ≤ 2 ^ (-12 : ℤ)) (h : ∀ i j, |A i j - quatMat (qv w v) i j| ≤ e)
    (hl : 32 * (e + 2 ^ (-21 : ℤ)) ≤ vlen v ^ 2) :
    ∃ (q : ℝ) (y : Vec3) (σ : ℝ), Quat.fromTransform (Transform.ofMat A t) = Quat.ofH (qv q y) ∧ RepH (qv q y) ∧ 0 ≤ q ∧
      (σ = 1 ∨ σ = -1 ∧ w ≤ 2 * (e + 2 ^ (-21 : ℤ))) ∧ |q ^ 2 - w ^ 2| ≤ e + 2 ^ (-21 : ℤ) ∧
      vlen (y - σ • v) * vlen v ≤ 13 * (e + 2 ^ (-21 : ℤ)) ∧ |‖qv q y‖ - 1| ≤ 2 ^ (-20 : ℤ) := by
  have h21 : (2 : ℝ) ^ (-21 : ℤ) = 8 / 16777216 := by norm_num
  have h12 : (2 : ℝ) ^ (-12 : ℤ) = 1 / 4096 := by norm_num
  rw [h21] at hl ⊢
  rw [h12] at he
  have e0 : 0 ≤ e := (abs_nonneg _).trans (h 0 0)
  have hw2 := qv_norm_sq w v
  rw [hu, one_pow] at hw2
  have hv2 := vlen_sq v
  rw [Fin.sum_univ_three] at hv2
  have hp : w ^ 2 + v 0 ^ 2 + v 1 ^ 2 + v 2 ^ 2 = 1 := by linarith
  rw [quatMat_eq hu] at h
  have hb := poly_rot_bounds hp
  change ∀ i j, |A i j - polyMat w (v 0) (v 1) (v 2) i j| ≤ e at h
  have nr : ∀ i j, Near (fin (A i j)) (polyMat w (v 0) (v 1) (v 2) i j) e := fun i j => ⟨_, rfl, hA i j, h i j⟩
  have w1 : |w| ≤ 1 := sq_le_of (by norm_num) (by rw [sq_abs]; nlinarith [sq_nonneg (v 0), sq_nonneg (v 1), sq_nonneg (v 2)])
  have v1 : ∀ i, |v i| ≤ 1 := fun i => (abs_le_vlen v i).trans (sq_le_of (by norm_num) (by linarith [sq_nonneg w]))
  -- sums and differences of two elements
  have nsub : ∀ i j k l, Near (sub (fin (A i j)) (fin (A k l)))
      (polyMat w (v 0) (v 1) (v 2) i j - polyMat w (v 0) (v 1) (v 2) k l) (2 * e + 3 / 16777216) := fun i j k l => by
    have := Near.sum (M := 2) (θ := 2 * e + 3 / 16777216) (nr i j) (nr k l).neg
      ((abs_add_le _ _).trans (by rw [abs_neg]; linarith [hb i j, hb k l])) (by norm_num; linarith) (by norm_num; linarith)
    rwa [← sub_eq_add_neg] at this
  have nadd : ∀ i j k l, Near (add (fin (A i j)) (fin (A k l)))
      (polyMat w (v 0) (v 1) (v 2) i j + polyMat w (v 0) (v 1) (v 2) k l) (3 * e + 12 / 16777216) := fun i j k l =>
    Near.sum (M := 2) (nr i j) (nr k l) ((abs_add_le _ _).trans (by linarith [hb i j, hb k l])) (by norm_num; linarith)
      (by norm_num; linarith)
  have ndiag : ∀ i j k, Near (add (sub (sub (fin (A i i)) (fin (A j j))) (fin (A k k))) (fin 1))
      (polyMat w (v 0) (v 1) (v 2) i i - polyMat w (v 0) (v 1) (v 2) j j - polyMat w (v 0) (v 1) (v 2) k k + 1)
      (3 * e + 12 / 16777216) := fun i j k => by
    have k1 := Near.sum (M := 3) (θ := 3 * e + 6.2 / 16777216) (nsub i i j j) (nr k k).neg
      ((abs_add_le _ _).trans (by
        have := abs_sub (polyMat w (v 0) (v 1) (v 2) i i) (polyMat w (v 0) (v 1) (v 2) j j)
        rw [abs_neg]; linarith [hb i i, hb j j, hb k k])) (by norm_num; linarith) (by norm_num; linarith)
    rw [← sub_eq_add_neg] at k1
    refine Near.sum (M := 4) k1 (Near.of_rep Rep.one) ?_ (by norm_num; linarith) (by norm_num; linarith)
    have a1 := abs_le.1 (hb i i)
    have a2 := abs_le.1 (hb j j)
    have a3 := abs_le.1 (hb k k)
    rw [abs_le]
    constructor <;> linarith
  -- the scalar part
  obtain ⟨q, hq, rq, q0, qe⟩ := scalar_fin (w := w) (h 0 0) (h 1 1) (h 2 2) (hA 0 0) (hA 1 1) (hA 2 2) (hb 0 0) (hb 1 1)
    (hb 2 2) (by simp [polyMat]; linarith) (by rw [← sq_abs]; nlinarith [abs_nonneg w]) he (Rotation.ofMat A) rfl rfl rfl
  have qe2 : |q ^ 2 - w ^ 2| ≤ e + 8 / 16777216 := by norm_num at qe ⊢; linarith
  set δ := e + 8 / 16777216 with hδ
  have V0 := vlen_nonneg v
  -- the vector
  obtain ⟨ux, hux, -, uxe⟩ := nsub 2 1 1 2
  obtain ⟨uy, huy, -, uye⟩ := nsub 0 2 2 0
  obtain ⟨uz, huz, -, uze⟩ := nsub 1 0 0 1
  have nx := nsub 2 1 1 2
  have ny := nsub 0 2 2 0
  have nz := nsub 1 0 0 1
  have cx : polyMat w (v 0) (v 1) (v 2) 2 1 - polyMat w (v 0) (v 1) (v 2) 1 2 = 4 * w * v 0 := by simp [polyMat]; ring
  have cy : polyMat w (v 0) (v 1) (v 2) 0 2 - polyMat w (v 0) (v 1) (v 2) 2 0 = 4 * w * v 1 := by simp [polyMat]; ring
  have cz : polyMat w (v 0) (v 1) (v 2) 1 0 - polyMat w (v 0) (v 1) (v 2) 0 1 = 4 * w * v 2 := by simp [polyMat]; ring
  rw [cx] at nx uxe
  rw [cy] at ny uye
  rw [cz] at nz uze
  have nk : ∀ i : Fin 3, Near (![sub (fin (A 2 1)) (fin (A 1 2)), sub (fin (A 0 2)) (fin (A 2 0)),
      sub (fin (A 1 0)) (fin (A 0 1))] i) (4 * w * v i) (2 * e + 3 / 16777216) := by
    intro i; fin_cases i <;> assumption
  -- one of the three choices
  have choice : ∀ (a : Fin 3) (g : Fin 3 → F32) (κ : ℝ), (∀ i, Near (g i) (4 * v a * v i) (3 * e + 12 / 16777216)) →
      |κ - 4 * w * v a| ≤ 2 * e + 3 / 16777216 → vlen v ^ 2 - 2 * e ≤ 3 * v a ^ 2 →
      ∃ (y : Vec3) (σ : ℝ), (if le (fin 0) (fin κ) then
          Quat.fromTransformEnd (Rotation.ofMat A) (add (sub (fin (A 2 1)) (fin (A 1 2))) (g 0))
            (add (sub (fin (A 0 2)) (fin (A 2 0))) (g 1)) (add (sub (fin (A 1 0)) (fin (A 0 1))) (g 2))
        else Quat.fromTransformEnd (Rotation.ofMat A) (sub (sub (fin (A 2 1)) (fin (A 1 2))) (g 0))
            (sub (sub (fin (A 0 2)) (fin (A 2 0))) (g 1)) (sub (sub (fin (A 1 0)) (fin (A 0 1))) (g 2))) =
          Quat.ofH (qv q y) ∧ RepH (qv q y) ∧ (σ = 1 ∨ σ = -1 ∧ w ≤ 2 * δ) ∧ vlen (y - σ • v) * vlen v ≤ 13 * δ ∧
          |‖qv q y‖ - 1| ≤ 2 ^ (-20 : ℤ) := by
    intro a g κ hg hκ ha
    obtain ⟨f1, f2⟩ := factor_bound (δ := δ) hw V0 hw2.symm ha e0 hl (by rw [hδ]; linarith) (by rw [hδ]; linarith)
      (by rw [hδ]; norm_num; linarith) (hκ.trans (by rw [hδ]; linarith))
    have cc := fun i => comp_near (nk i) (hg i) w1 (v1 a) (v1 i) he e0
    have fin_step : ∀ (τ σ : ℝ) (f : Fin 3 → F32), (∀ i, Near (f i) (4 * τ * v i) (5 * e + 24 / 16777216)) →
        (σ = 1 ∨ σ = -1 ∧ w ≤ 2 * δ) → 0.475 ≤ σ * τ → |τ| ≤ 2 →
        ∃ (y : Vec3) (σ : ℝ), Quat.fromTransformEnd (Rotation.ofMat A) (f 0) (f 1) (f 2) =
          Quat.ofH (qv q y) ∧ RepH (qv q y) ∧ (σ = 1 ∨ σ = -1 ∧ w ≤ 2 * δ) ∧ vlen (y - σ • v) * vlen v ≤ 13 * δ ∧
          |‖qv q y‖ - 1| ≤ 2 ^ (-20 : ℤ) := by
      intro τ σ f hf hσ hτ hτ2
      obtain ⟨k, hk, ke⟩ := vec_near (x := (4 * τ) • v) (fun i => hf i)
      have hσ' : σ = 1 ∨ σ = -1 := hσ.imp_right And.left
      obtain ⟨y, y1, y2, y3, y4⟩ := end_near (τ := τ) (σ := σ) (δ := δ) (k := k) hq rq q0 qe2 hw2.symm hl
        (by rw [hδ]; linarith) (by rw [hδ]; norm_num; linarith) hσ' hτ
        (by obtain ⟨t1, t2⟩ := abs_le.1 hτ2; rcases hσ' with rfl | rfl <;> linarith) (ke.trans (by rw [hδ]; linarith))
      refine ⟨y, σ, ?_, y2, hσ, y3, y4⟩
      rw [hk 0, hk 1, hk 2, y1]
    have aw := abs_le.1 w1
    have ava := abs_le.1 (v1 a)
    by_cases hs : le (fin 0) (fin κ)
    · rw [if_pos hs]
      rw [le_iff_fin] at hs
      obtain ⟨σ, s1, s2⟩ := f1 hs
      exact fin_step (w + v a) σ ![add (sub (fin (A 2 1)) (fin (A 1 2))) (g 0), add (sub (fin (A 0 2)) (fin (A 2 0))) (g 1),
        add (sub (fin (A 1 0)) (fin (A 0 1))) (g 2)] (fun i => by fin_cases i; exacts [(cc 0).1, (cc 1).1, (cc 2).1]) s1 s2
        (by rw [abs_le]; constructor <;> linarith)
    · rw [if_neg hs]
      rw [le_iff_fin] at hs
      obtain ⟨σ, s1, s2⟩ := f2 (lt_of_not_ge hs)
      exact fin_step (w - v a) σ ![sub (sub (fin (A 2 1)) (fin (A 1 2))) (g 0), sub (sub (fin (A 0 2)) (fin (A 2 0))) (g 1),
        sub (sub (fin (A 1 0)) (fin (A 0 1))) (g 2)] (fun i => by fin_cases i; exacts [(cc 0).2, (cc 1).2, (cc 2).2]) s1 s2
        (by rw [abs_le]; constructor <;> linarith)
  have d0 := abs_le.1 (h 0 0)
  have d1 := abs_le.1 (h 1 1)
  have d2 := abs_le.1 (h 2 2)
  simp only [polyMat, of_apply, cons_val', cons_val_zero, cons_val_one, cons_val] at d0 d1 d2
  have goal : ∃ (y : Vec3) (σ : ℝ), Quat.fromTransform (Transform.ofMat A t) = Quat.ofH (qv q y) ∧ RepH (qv q y) ∧
      (σ = 1 ∨ σ = -1 ∧ w ≤ 2 * δ) ∧ vlen (y - σ • v) * vlen v ≤ 13 * δ ∧ |‖qv q y‖ - 1| ≤ 2 ^ (-20 : ℤ) := by
    simp only [Quat.fromTransform, Quat.fromTransformSelect, Transform.ofMat, Rotation.ofMat, le_iff_fin]
    have X0 : Near (add (sub (sub (fin (A 0 0)) (fin (A 1 1))) (fin (A 2 2))) (fin 1)) (4 * v 0 * v 0) (3 * e + 12 / 16777216) := by
      convert ndiag 0 1 2 using 1
      simp [polyMat]
      ring
    have X1 : Near (add (fin (A 1 0)) (fin (A 0 1))) (4 * v 0 * v 1) (3 * e + 12 / 16777216) := by
      convert nadd 1 0 0 1 using 1
      simp [polyMat]
      ring
    have X2 : Near (add (fin (A 2 0)) (fin (A 0 2))) (4 * v 0 * v 2) (3 * e + 12 / 16777216) := by
      convert nadd 2 0 0 2 using 1
      simp [polyMat]
      ring
    have Y0 : Near (add (fin (A 1 0)) (fin (A 0 1))) (4 * v 1 * v 0) (3 * e + 12 / 16777216) := by
      convert nadd 1 0 0 1 using 1
      simp [polyMat]
      ring
    have Y1 : Near (add (sub (sub (fin (A 1 1)) (fin (A 0 0))) (fin (A 2 2))) (fin 1)) (4 * v 1 * v 1) (3 * e + 12 / 16777216) := by
      convert ndiag 1 0 2 using 1
      simp [polyMat]
      ring
    have Y2 : Near (add (fin (A 2 1)) (fin (A 1 2))) (4 * v 1 * v 2) (3 * e + 12 / 16777216) := by
      convert nadd 2 1 1 2 using 1
      simp [polyMat]
      ring
    have Z0 : Near (add (fin (A 2 0)) (fin (A 0 2))) (4 * v 2 * v 0) (3 * e + 12 / 16777216) := by
      convert nadd 2 0 0 2 using 1
      simp [polyMat]
      ring
    have Z1 : Near (add (fin (A 2 1)) (fin (A 1 2))) (4 * v 2 * v 1) (3 * e + 12 / 16777216) := by
      convert nadd 2 1 1 2 using 1
      simp [polyMat]
      ring
    have Z2 : Near (add (sub (sub (fin (A 2 2)) (fin (A 0 0))) (fin (A 1 1))) (fin 1)) (4 * v 2 * v 2) (3 * e + 12 / 16777216) := by
      convert ndiag 2 0 1 using 1
      simp [polyMat]
      ring
    by_cases c1 : A 1 1 ≤ A 0 0 ∧ A 2 2 ≤ A 0 0
    · obtain ⟨c2, c3⟩ := c1
      simp only [if_pos (And.intro c2 c3)]
      have := choice 0 ![add (sub (sub (fin (A 0 0)) (fin (A 1 1))) (fin (A 2 2))) (fin 1), add (fin (A 1 0)) (fin (A 0 1)), add (fin (A 2 0)) (fin (A 0 2))] ux (fun i => by
        fin_cases i
        exacts [X0, X1, X2]) uxe (by rw [hv2]; linarith)
      rw [hux] at this ⊢
      exact this
    · simp only [if_neg c1]
      by_cases c2 : A 2 2 ≤ A 1 1
      · have c3 : A 0 0 ≤ A 1 1 := by
          by_contra hc
          have hc := lt_of_not_ge hc
          exact c1 ⟨hc.le, c2.trans hc.le⟩
        simp only [if_pos c2]
        have := choice 1 ![add (fin (A 1 0)) (fin (A 0 1)), add (sub (sub (fin (A 1 1)) (fin (A 0 0))) (fin (A 2 2))) (fin 1), add (fin (A 2 1)) (fin (A 1 2))] uy (fun i => by
          fin_cases i
          exacts [Y0, Y1, Y2]) uye (by rw [hv2]; linarith)
        rw [huy] at this ⊢
        exact this
      · have c4 := lt_of_not_ge c2
        have c3 : A 0 0 ≤ A 2 2 := by
          by_contra hc
          have hc := lt_of_not_ge hc
          exact c1 ⟨c4.le.trans hc.le, hc.le⟩
        simp only [if_neg c2]
        have := choice 2 ![add (fin (A 2 0)) (fin (A 0 2)), add (fin (A 2 1)) (fin (A 1 2)), add (sub (sub (fin (A 2 2)) (fin (A 0 0))) (fin (A 1 1))) (fin 1)] uz (fun i => by
          fin_cases i
          exacts [Z0, Z1, Z2]) uze (by rw [hv2]; linarith)
        rw [huz] at this ⊢
        exact this
  obtain ⟨y, σ, g1, g2, g3, g4, g5⟩ := goal
  exact ⟨q, y, σ, g1, g2, q0, g3, qe2, g4, g5⟩

/-- Every rotation is that of a unit quaternion with a real part that is not negative. -/
theorem rot_quat {P : Mat3} (hP : IsRot P) : ∃ (w : ℝ) (v : Vec3), 0 ≤ w ∧ ‖qv w v‖ = 1 ∧ quatMat (qv w v) = P := by
  have e0 : P = !![P 0 0, P 0 1, P 0 2; P 1 0, P 1 1, P 1 2; P 2 0, P 2 1, P 2 2] := by
    ext i j; fin_cases i <;> fin_cases j <;> rfl
  rw [e0] at hP
  obtain ⟨w, x, y, z, w0, hu, h1, h2, h3, h4, h5, h6, h7, h8, h9⟩ := quat_of_rot hP.eqs
  have hn : ‖qv w ![x, y, z]‖ = 1 := by
    refine (pow_left_inj₀ (norm_nonneg _) zero_le_one two_ne_zero).1 ?_
    rw [qv_norm_sq, vlen_sq, Fin.sum_univ_three]
    simp
    linarith
  refine ⟨w, ![x, y, z], w0, hn, ?_⟩
  rw [quatMat_eq hn, e0, h1, h2, h3, h4, h5, h6, h7, h8, h9]
  rfl

theorem quatMat_neg (p : ℍ[ℝ]) : quatMat (-p) = quatMat p := by
  simp [quatMat]

/-- The quaternion of a matrix near a rotation that is not too small is near one of the two quaternions of the
rotation. -/
theorem quat_dist {q w σ δ : ℝ} {y v : Vec3} (q0 : 0 ≤ q) (w0 : 0 ≤ w) (δ0 : 0 < δ) (δ1 : δ ≤ 1 / 4000)
    (hσ : σ = 1 ∨ σ = -1 ∧ w ≤ 2 * δ) (hq : |q ^ 2 - w ^ 2| ≤ δ) (hy : vlen (y - σ • v) * vlen v ≤ 13 * δ)
    (hV : 32 * δ ≤ vlen v ^ 2) : ‖qv q y - σ • qv w v‖ ≤ 4 * √δ := by
  have s0 : 0 < √δ := Real.sqrt_pos.2 δ0
  have s2 : √δ ^ 2 = δ := Real.sq_sqrt δ0.le
  have V0 := vlen_nonneg v
  have s1 : √δ ≤ 1 / 60 := by
    refine sq_le_of (by norm_num) ?_
    rw [s2]
    linarith
  have a1 : |q - w| ≤ √δ := by
    refine sq_le_of s0.le ?_
    rw [sq_abs, s2]
    obtain ⟨h1, h2⟩ := abs_le.1 hq
    rcases le_total q w with h | h <;> nlinarith
  have a2 : 5.6 * √δ ≤ vlen v := by
    refine sq_le_of V0 ?_
    rw [mul_pow, s2]
    norm_num
    linarith
  have a3 : vlen (y - σ • v) ≤ 2.4 * √δ := by
    have y0 := vlen_nonneg (y - σ • v)
    by_contra hc
    have hc := lt_of_not_ge hc
    have : 2.4 * √δ * (5.6 * √δ) ≤ vlen (y - σ • v) * vlen v := mul_le_mul hc.le a2 (by positivity) y0
    have e : 2.4 * √δ * (5.6 * √δ) = 13.44 * √δ ^ 2 := by ring
    rw [s2] at e
    norm_num at e
    norm_num at this
    nlinarith
  have e1 : σ • qv w v = qv (σ * w) (σ • v) := by
    ext <;> simp [qv]
  rw [e1, qv_sub]
  refine (qv_norm_le _ _).trans ?_
  have a4 : |q - σ * w| ≤ 1.2 * √δ := by
    rcases hσ with rfl | ⟨rfl, hw⟩
    · rw [one_mul]
      norm_num
      linarith
    · have b1 := abs_le.1 a1
      have b2 : 4 * δ ≤ 0.1 * √δ := by
        norm_num
        nlinarith
      rw [abs_le]
      norm_num at b2 ⊢
      constructor <;> linarith
  norm_num at a3 a4
  linarith

/-- quaternionFromTransform and back, for a matrix within `e` of a rotation. -/
theorem C109_back (A P : Mat3) (hA : ∀ i j, Rep (A i j)) (t : Vec3) (hP : IsRot P) (e : ℝ) (he : e ≤ 2 ^ (-12 : ℤ))
    (h : ∀ i j, |A i j - P i j| ≤ e) (hl : P 0 0 + P 1 1 + P 2 2 ≤ 3 - 128 * (e + 2 ^ (-21 : ℤ))) :
    ∃ (p r : ℍ[ℝ]) (B : Mat3), ‖p‖ = 1 ∧ quatMat p = P ∧ Quat.fromTransform (Transform.ofMat A t) = Quat.ofH r ∧
      ‖r - p‖ ≤ 4 * √(e + 2 ^ (-21 : ℤ)) ∧ |‖r‖ - 1| ≤ 2 ^ (-20 : ℤ) ∧
      (Displacement.fromTransform (Transform.ofMat A t)).toTransform = Transform.ofMat B t ∧
      fro (B - P) ≤ 50 * √(e + 2 ^ (-21 : ℤ)) := by
  obtain ⟨w, v, w0, hu, hq⟩ := rot_quat hP
  have e0 : 0 ≤ e := (abs_nonneg _).trans (h 0 0)
  have hw2 := qv_norm_sq w v
  rw [hu, one_pow] at hw2
  have tr : P 0 0 + P 1 1 + P 2 2 = 3 - 4 * vlen v ^ 2 := by
    rw [← hq, quatMat_eq hu, vlen_sq, Fin.sum_univ_three]
    simp [polyMat, qv]
    ring
  have hV : 32 * (e + 2 ^ (-21 : ℤ)) ≤ vlen v ^ 2 := by linarith
  obtain ⟨q, y, σ, h1, h2, h3, h4, h5, h6, h7⟩ := C109_matrix A hA t w v w0 hu e he (fun i j => by rw [hq]; exact h i j) hV
  have h21 : (2 : ℝ) ^ (-21 : ℤ) = 8 / 16777216 := by norm_num
  have h12 : (2 : ℝ) ^ (-12 : ℤ) = 1 / 4096 := by norm_num
  have h19 : (2 : ℝ) ^ (-19 : ℤ) = 32 / 16777216 := by norm_num
  rw [h21] at hV h4 h5 h6 ⊢
  rw [h12] at he
  set δ := e + 8 / 16777216 with hδ
  have δ0 : 8 / 16777216 ≤ δ := by rw [hδ]; linarith
  have δ1 : δ ≤ 1 / 4000 := by rw [hδ]; norm_num; linarith
  have d := quat_dist h3 w0 (by linarith) δ1 h4 h5 h6 hV
  have s0 : 0 ≤ √δ := Real.sqrt_nonneg _
  have s2 : √δ ^ 2 = δ := Real.sq_sqrt (by linarith)
  have s1 : √δ ≤ 1 / 60 := by
    refine sq_le_of (by norm_num) ?_
    rw [s2]
    linarith
  have sl : 1 / 1500 ≤ √δ := Real.le_sqrt_of_sq_le (by norm_num at δ0 ⊢; linarith)
  have hp : ‖σ • qv w v‖ = 1 ∧ quatMat (σ • qv w v) = P := by
    rcases h4 with rfl | ⟨rfl, -⟩
    · rw [one_smul]; exact ⟨hu, hq⟩
    · rw [neg_one_smul, norm_neg, quatMat_neg]; exact ⟨hu, hq⟩
  obtain ⟨-, B, b1, -, b2⟩ := C83_rotation (qv q y) _ _ hp.1 d (by linarith)
  rw [hp.2, h19] at b2
  refine ⟨_, qv q y, B, hp.1, hp.2, h1, d, h7, ?_, ?_⟩
  · rw [Displacement.fromTransform, Displacement.toTransform, h1]
    simp only [b1]
    rfl
  · have : (4 * √δ) ^ 2 ≤ 16 / 60 * √δ := by nlinarith
    norm_num at b2 ⊢
    linarith

/-! ### Matrices with a large trace, and small rotations -/

theorem rnd64_neg {x : ℝ} (h : x ≤ -1 / 10 ^ 8) : F64.rnd x < 0 := by
  have := abs_le.1 (rnd64_bnd x)
  rw [abs_of_neg (lt_of_le_of_lt h (by norm_num))] at this
  norm_num at this h
  linarith

theorem end_nan {r : Rotation} {q : ℝ} (hq : Quat.fromTransformScalar r = fin q) (h1 : 1 + 2 / 16777216 ≤ q) (h2 : q ≤ 2)
    (kx ky kz : F32) : (eq (norm3 kx ky kz) (fin 0) ∧ Quat.fromTransformEnd r kx ky kz = ⟨fin 1, fin 0, fin 0, fin 0⟩) ∨
      ¬ eq (norm3 kx ky kz) (fin 0) ∧ Quat.fromTransformEnd r kx ky kz = ⟨fin q, nan, nan, nan⟩ := by
  have big : (5 : ℝ) ≤ 2 ^ 1000 := by
    calc (5 : ℝ) ≤ 2 ^ 3 := by norm_num
      _ ≤ 2 ^ 1000 := pow_le_pow_right₀ (by norm_num) (by norm_num)
  have fn : ∀ {x : ℝ}, |x| ≤ 5 → F64.round x = fin (F64.rnd x) := fun hx => F64.round_fin (hx.trans big)
  have hx : F64.sqrt (F64.sub (fin 1) (F64.sq (fin q))) = nan := by
    have a0 : q * q ≤ 4 := by nlinarith
    have a1 : 1 + 4 / 16777216 ≤ q * q := by nlinarith
    have k1 := abs_le.1 (rnd64_bnd (q * q))
    rw [abs_of_pos (by linarith : 0 < q * q)] at k1
    rw [F64.sq, F64.mul, fn (by rw [abs_of_pos (by linarith : 0 < q * q)]; linarith)]
    generalize F64.rnd (q * q) = P at *
    norm_num at k1
    rw [F64.sub, neg, F64.add, fn (by rw [abs_le]; constructor <;> linarith), F64.sqrt, if_pos]
    refine rnd64_neg ?_
    norm_num
    linarith
  by_cases hn : eq (norm3 kx ky kz) (fin 0)
  · exact .inl ⟨hn, if_pos hn⟩
  · refine .inr ⟨hn, ?_⟩
    rw [Quat.fromTransformEnd]
    simp only [hq, hx]
    rw [if_neg hn]
    have d : F64.div nan (norm3 kx ky kz) = nan := by cases norm3 kx ky kz <;> rfl
    have m : ∀ x, mul nan x = nan := fun x => by cases x <;> rfl
    rw [d]
    simp only [F64.toFloat, m]

theorem scalar_large {r11 r22 r33 : ℝ} (ra : Rep r11) (rb : Rep r22) (rc : Rep r33) (a1 : |r11| ≤ 2) (b1 : |r22| ≤ 2)
    (c1 : |r33| ≤ 2) (hl : 3 + 64 / 16777216 ≤ r11 + r22 + r33) (r : Rotation) (h1 : r.r11 = fin r11) (h2 : r.r22 = fin r22)
    (h3 : r.r33 = fin r33) : ∃ q, Quat.fromTransformScalar r = fin q ∧ 1 + 2 / 16777216 ≤ q ∧ q ≤ 2 := by
  obtain ⟨a2, a3⟩ := abs_le.1 a1
  obtain ⟨b2, b3⟩ := abs_le.1 b1
  obtain ⟨c2, c3⟩ := abs_le.1 c1
  have n4 := Near.sum (M := 4) (θ := 4.1 / 16777216) (Near.of_rep ra) (Near.of_rep rb) (by rw [abs_le]; constructor <;> linarith)
    (by norm_num) (by norm_num)
  have n5 := Near.sum (M := 6) (θ := 10.2 / 16777216) n4 (Near.of_rep rc) (by rw [abs_le]; constructor <;> linarith)
    (by norm_num) (by norm_num)
  obtain ⟨t, h4, rt, ht⟩ := Near.sum (M := 7) (θ := 17.3 / 16777216) n5 (Near.of_rep Rep.one)
    (by rw [abs_le]; constructor <;> linarith) (by norm_num) (by norm_num)
  obtain ⟨t1, t2⟩ := abs_le.1 ht
  norm_num at t1 t2 hl
  have T0 : 0 ≤ t := by linarith
  have S0 := Real.sqrt_nonneg t
  have S1 : √t ≤ 3 := by
    refine sq_le_of (by norm_num) ?_
    rw [Real.sq_sqrt T0]
    linarith
  have SL : 2 + 11 / 16777216 ≤ √t := Real.le_sqrt_of_sq_le (by norm_num; linarith)
  have k1 := rnd_bnd √t
  rw [abs_of_nonneg S0] at k1
  have k1' := abs_le.1 k1
  have g0 : 0 ≤ rnd √t := le_rnd_of_le Rep.zero.grid S0
  have k2 := rnd_bnd (1 / 2 * rnd √t)
  rw [abs_of_nonneg (show 0 ≤ 1 / 2 * rnd √t by linarith)] at k2
  have k2' := abs_le.1 k2
  have hb1 : |√t| ≤ 2 ^ 127 := by rw [abs_of_nonneg S0]; exact S1.trans (by norm_num)
  norm_num at k1' k2' SL
  have hb2 : |1 / 2 * rnd √t| ≤ 2 ^ 127 := by
    rw [abs_of_nonneg (by positivity)]
    norm_num
    linarith
  refine ⟨rnd (1 / 2 * rnd √t), ?_, ?_, ?_⟩
  · have hl : ¬ lt (fin t) (fin 0) := not_lt.2 T0
    rw [← h1, ← h2, ← h3] at h4
    simp only [Quat.fromTransformScalar]
    rw [if_neg (by rw [h4]; exact hl), h4, sqrt, if_neg (not_lt.2 T0), round_fin hb1, mul_fin hb2]
  · norm_num
    linarith
  · norm_num
    linarith

/-- When the diagonal adds up to more than 3 + 2^-18, the vector part is NaN, except when the result is the identity. -/
theorem C109_nan (A : Mat3) (hA : ∀ i j, Rep (A i j)) (t : Vec3) (hb : ∀ i, |A i i| ≤ 2)
    (hl : 3 + 2 ^ (-18 : ℤ) ≤ A 0 0 + A 1 1 + A 2 2) :
    Quat.fromTransform (Transform.ofMat A t) = ⟨fin 1, fin 0, fin 0, fin 0⟩ ∨
    ∃ q, 1 < q ∧ Quat.fromTransform (Transform.ofMat A t) = ⟨fin q, nan, nan, nan⟩ := by
  have h18 : (2 : ℝ) ^ (-18 : ℤ) = 64 / 16777216 := by norm_num
  rw [h18] at hl
  obtain ⟨q, h1, h2, h3⟩ := scalar_large (hA 0 0) (hA 1 1) (hA 2 2) (hb 0) (hb 1) (hb 2) hl (Rotation.ofMat A) rfl rfl rfl
  have key : ∀ kx ky kz, Quat.fromTransformEnd (Rotation.ofMat A) kx ky kz = ⟨fin 1, fin 0, fin 0, fin 0⟩ ∨
      ∃ q, 1 < q ∧ Quat.fromTransformEnd (Rotation.ofMat A) kx ky kz = ⟨fin q, nan, nan, nan⟩ := fun kx ky kz => by
    rcases end_nan h1 h2 h3 kx ky kz with h | h
    · exact .inl h.2
    · exact .inr ⟨q, by linarith, h.2⟩
  rw [Quat.fromTransform]
  split_ifs <;> exact key _ _ _

/-- isTransform, with its default tolerance, accepts a matrix for which quaternionFromTransform gives NaN. -/
theorem C109_nan_accepted (t : Vec3) (eps : ℝ) (heps : Rep eps) (h : 99 / 1000000 ≤ eps) :
    Transform.isTransform (Transform.ofMat ((1 + 2 ^ (-17 : ℤ) : ℝ) • (1 : Mat3)) t) (fin eps) = true ∧
    ∃ q, Quat.fromTransform (Transform.ofMat ((1 + 2 ^ (-17 : ℤ) : ℝ) • (1 : Mat3)) t) = ⟨fin q, nan, nan, nan⟩ := by
  have h17 : (2 : ℝ) ^ (-17 : ℤ) = 1 / 131072 := by norm_num
  have r1 : Rep (1 + 2 ^ (-17 : ℤ)) := ⟨131073, -17, by norm_num, by norm_num, by norm_num, by norm_num⟩
  have r2 : Rep (-(2 ^ (-17 : ℤ))) := ⟨-1, -17, by norm_num, by norm_num, by norm_num, by norm_num⟩
  constructor
  · refine C80_accepts _ 1 ⟨by simp, by simp⟩ (1 / 65536) eps ?_ (by norm_num) heps (le_trans (by norm_num) h)
    refine sq_le_of (by norm_num) ?_
    rw [fro_sq]
    simp [Fin.sum_univ_three, h17]
    norm_num
  · obtain ⟨q, q1, q2, q3⟩ := scalar_large r1 r1 r1 (by rw [h17, abs_le]; norm_num) (by rw [h17, abs_le]; norm_num)
      (by rw [h17, abs_le]; norm_num) (by rw [h17]; norm_num) (Rotation.ofMat ((1 + 2 ^ (-17 : ℤ) : ℝ) • (1 : Mat3)))
      (by simp [Rotation.ofMat]) (by simp [Rotation.ofMat]) (by simp [Rotation.ofMat])
    refine ⟨q, ?_⟩
    have z : round 0 = fin 0 := round_rep Rep.zero
    have e1 : round (-(1 + 2 ^ (-17 : ℤ))) = fin (-(1 + 2 ^ (-17 : ℤ))) := round_rep r1.neg
    have e2 : round (-(2 ^ (-17 : ℤ)) + -1) = fin (-(2 ^ (-17 : ℤ)) + -1) := by
      rw [show -((2 : ℝ) ^ (-17 : ℤ)) + -1 = -(1 + 2 ^ (-17 : ℤ)) by ring]
      exact round_rep r1.neg
    have e3 : round (-(2 ^ (-17 : ℤ))) = fin (-(2 ^ (-17 : ℤ))) := round_rep r2
    have hk : Quat.fromTransform (Transform.ofMat ((1 + 2 ^ (-17 : ℤ) : ℝ) • (1 : Mat3)) t) =
        Quat.fromTransformEnd (Rotation.ofMat ((1 + 2 ^ (-17 : ℤ) : ℝ) • (1 : Mat3))) (fin (-(2 ^ (-17 : ℤ)))) (fin 0) (fin 0) := by
      rw [Quat.fromTransform]
      generalize (2 : ℝ) ^ (-17 : ℤ) = d at *
      simp [Quat.fromTransformSelect, Transform.ofMat, Rotation.ofMat, sub, add, neg, z, e1, e2, e3, le_iff_fin]
    rw [hk]
    obtain ⟨n, n1, -, -, n2⟩ := norm3_fin ![-(2 ^ (-17 : ℤ)), 0, 0] (by
      refine sq_le_of (by norm_num) ?_
      rw [vlen_sq, Fin.sum_univ_three]
      simp [h17]
      norm_num)
    have hv : vlen ![-((2 : ℝ) ^ (-17 : ℤ)), 0, 0] = 2 ^ (-17 : ℤ) := by
      refine (pow_left_inj₀ (vlen_nonneg _) (by positivity) two_ne_zero).1 ?_
      rw [vlen_sq, Fin.sum_univ_three]
      simp
    rw [hv] at n2
    have n0 : n ≠ 0 := by
      rintro rfl
      rw [zero_sub, abs_neg, abs_of_pos (by positivity)] at n2
      norm_num at n2
    rcases end_nan q1 q2 q3 (fin (-(2 ^ (-17 : ℤ)))) (fin 0) (fin 0) with h | h
    · exfalso
      have h1 := h.1
      have n1' : norm3 (fin (-(2 ^ (-17 : ℤ)))) (fin 0) (fin 0) = fin n := n1
      rw [n1'] at h1
      exact n0 h1
    · exact h.2

/-- The identity plus a skew-symmetric matrix. Not in /repo: specification. -/
def onePlus (v : Vec3) : Mat3 := !![1, -v 2, v 1; v 2, 1, -v 0; -v 1, v 0, 1]

theorem rnd64_one : F64.round 1 = fin 1 := by
  have big : (1 : ℝ) ≤ 2 ^ 1000 := one_le_pow₀ (by norm_num)
  rw [F64.round_fin (by rw [abs_one]; exact big)]
  congr 1
  have hl : F64.lastBit 1 = -52 := by simp [F64.lastBit]
  have e : (1 : ℝ) / 2 ^ (-52 : ℤ) = ((2 ^ 52 : ℤ) : ℝ) := by norm_num
  rw [F64.rnd, hl, e, nearestInt_int]
  norm_num

/-- A matrix with 1 on the diagonal and opposite elements beside it gives the identity. -/
theorem C109_small (v : Vec3) (hv : ∀ i, Rep (v i)) (h1 : ∀ i, |v i| ≤ 1) (t : Vec3) :
    Quat.fromTransform (Transform.ofMat (onePlus v) t) = ⟨fin 1, fin 0, fin 0, fin 0⟩ := by
  have z : round 0 = fin 0 := round_rep Rep.zero
  have o : round (-1) = fin (-1) := round_rep Rep.one.neg
  have e1 : round 1 = fin 1 := round_rep Rep.one
  have e2 : round 2 = fin 2 := round_rep ⟨2, 0, by norm_num, by norm_num, by norm_num, by norm_num⟩
  have e3 : round 3 = fin 3 := round_rep ⟨3, 0, by norm_num, by norm_num, by norm_num, by norm_num⟩
  have e4 : round 4 = fin 4 := round_rep ⟨4, 0, by norm_num, by norm_num, by norm_num, by norm_num⟩
  have dbl : ∀ i, round (v i + v i) = fin (rnd (v i + v i)) ∧ round (rnd (v i + v i)) = fin (rnd (v i + v i)) ∧
      rnd (v i + v i) ^ 2 ≤ 9 := fun i => by
    have k : |v i + v i| ≤ 2 := (abs_add_le _ _).trans (by linarith [h1 i])
    have hd : |v i + v i| ≤ 2 ^ 127 := k.trans (by norm_num)
    have kb := abs_le.1 (rnd_bnd (v i + v i))
    obtain ⟨k1, k2⟩ := abs_le.1 k
    norm_num at kb
    exact ⟨round_fin hd, round_rep (rnd_rep hd), by nlinarith⟩
  obtain ⟨a1, a2, a3⟩ := dbl 0
  obtain ⟨b1, b2, b3⟩ := dbl 1
  obtain ⟨c1, c2, c3⟩ := dbl 2
  have hk : Quat.fromTransform (Transform.ofMat (onePlus v) t) =
      Quat.fromTransformEnd (Rotation.ofMat (onePlus v)) (fin (rnd (v 0 + v 0))) (fin (rnd (v 1 + v 1))) (fin (rnd (v 2 + v 2))) := by
    rw [Quat.fromTransform]
    generalize rnd (v 0 + v 0) = a at *
    generalize rnd (v 1 + v 1) = b at *
    generalize rnd (v 2 + v 2) = c at *
    simp [Quat.fromTransformSelect, Transform.ofMat, Rotation.ofMat, onePlus, sub, add, neg, z, o, a1, a2, b1, b2, c1, c2, le_iff_fin]
  have q4 : √(4 : ℝ) = 2 := by
    rw [show (4 : ℝ) = 2 ^ 2 by norm_num]
    exact Real.sqrt_sq (by norm_num)
  have hq : Quat.fromTransformScalar (Rotation.ofMat (onePlus v)) = fin 1 := by
    have k1 : add (add (add (fin 1) (fin 1)) (fin 1)) (fin 1) = fin 4 := by
      simp only [add]
      norm_num [e2, e3, e4, add]
    have hl : ¬ lt (fin 4) (fin 0) := not_lt.2 (by norm_num)
    have k2 : (Rotation.ofMat (onePlus v)).r11 = fin 1 ∧ (Rotation.ofMat (onePlus v)).r22 = fin 1 ∧
        (Rotation.ofMat (onePlus v)).r33 = fin 1 := by simp [Rotation.ofMat, onePlus]
    rw [Quat.fromTransformScalar, k2.1, k2.2.1, k2.2.2, k1, if_neg hl, sqrt, if_neg (by norm_num), q4, e2, mul,
      show (1 / 2 * 2 : ℝ) = 1 by norm_num, e1]
  have f0 : F64.round 0 = fin 0 := by rw [F64.round_fin (by norm_num), F64.rnd_zero]
  have f1 : F64.sub (fin 1) (F64.sq (fin 1)) = fin 0 := by
    rw [F64.sq, F64.mul, mul_one, rnd64_one, F64.sub, neg, F64.add, add_neg_cancel, f0]
  rw [hk]
  obtain ⟨n, n1, -, n0, -⟩ := norm3_fin ![rnd (v 0 + v 0), rnd (v 1 + v 1), rnd (v 2 + v 2)] (by
    refine sq_le_of (by norm_num) ?_
    rw [vlen_sq, Fin.sum_univ_three]
    simp
    linarith)
  have n1' : norm3 (fin (rnd (v 0 + v 0))) (fin (rnd (v 1 + v 1))) (fin (rnd (v 2 + v 2))) = fin n := n1
  by_cases hn : n = 0
  · rw [Quat.fromTransformEnd, n1', if_pos (show eq (fin n) (fin 0) from hn)]
  · rw [Quat.fromTransformEnd]
    simp only [hq, f1]
    rw [if_neg (by rw [n1']; exact hn), n1', F64.sqrt, if_neg (lt_irrefl _), Real.sqrt_zero, f0, F64.div, if_neg hn, zero_div, f0,
      F64.toFloat, z]
    simp [mul, z]

/-- The cosine of a small angle is rounded to 1. -/
theorem cos_one {a : ℝ} (h : |a| ≤ 2 ^ (-13 : ℤ)) : round (Real.cos a) = fin 1 := by
  have h13 : (2 : ℝ) ^ (-13 : ℤ) = 1 / 8192 := by norm_num
  rw [h13] at h
  have c1 := Real.cos_le_one a
  have c2 := Real.one_sub_sq_div_two_le_cos (x := a)
  have c3 : a ^ 2 ≤ (1 / 8192) ^ 2 := by rw [← sq_abs]; gcongr
  norm_num at c3
  rcases c1.eq_or_lt with e | c1
  · rw [e]; exact round_rep Rep.one
  have hb : |Real.cos a| ≤ 2 ^ 127 := by
    rw [abs_le]
    constructor <;> norm_num <;> linarith
  rw [round_fin hb]
  congr 1
  have c0 : 0 < Real.cos a := by linarith
  have k := rnd_nearest (Real.cos a) Rep.one.grid
  rw [abs_of_pos (by linarith : 0 < 1 - Real.cos a)] at k
  obtain ⟨k1, k2⟩ := abs_le.1 k
  have hl : Int.log 2 |Real.cos a| = -1 := by
    have p : 0 < |Real.cos a| := abs_pos.2 c0.ne'
    have l1 : Int.log 2 |Real.cos a| < 0 :=
      (Int.lt_zpow_iff_log_lt (by norm_num) p).1 (by rw [abs_of_pos c0]; norm_num; exact c1)
    have l2 : -1 ≤ Int.log 2 |Real.cos a| :=
      (Int.zpow_le_iff_le_log (by norm_num) p).1 (by rw [abs_of_pos c0]; norm_num; linarith)
    omega
  have hb : lastBit (Real.cos a) = -24 := by rw [lastBit, hl]; norm_num
  rw [rnd, hb] at k1 k2 ⊢
  generalize nearestInt (Real.cos a / (2 : ℝ) ^ (-24 : ℤ)) = n at *
  have e24 : (2 : ℝ) ^ (-24 : ℤ) = 1 / 16777216 := by norm_num
  rw [e24] at k1 k2 ⊢
  have n1 : n < 16777217 := by
    have : (n : ℝ) < 16777217 := by linarith
    exact_mod_cast this
  have n2 : 16777215 < n := by
    have : (16777215 : ℝ) < n := by linarith
    exact_mod_cast this
  have : n = 16777216 := by omega
  rw [this]
  norm_num

theorem sin_round {a : ℝ} : ∃ s, round (Real.sin a) = fin s ∧ Rep s ∧ |s| ≤ 1 := by
  have h1 := Real.abs_sin_le_one a
  have hb : |Real.sin a| ≤ 2 ^ 127 := h1.trans (by norm_num)
  exact ⟨_, round_fin hb, rnd_rep hb, by rw [abs_rnd]; exact rnd_le_of_le Rep.one.grid h1⟩

/-- A rotation by at most 2^-13 rad about an axis is lost. -/
theorem C109_small_turn (a : ℝ) (h : |a| ≤ 2 ^ (-13 : ℤ)) :
    Quat.fromTransform (Transform.fromRotX Libm.rounded (fin a)) = ⟨fin 1, fin 0, fin 0, fin 0⟩ ∧
    Quat.fromTransform (Transform.fromRotY Libm.rounded (fin a)) = ⟨fin 1, fin 0, fin 0, fin 0⟩ ∧
    Quat.fromTransform (Transform.fromRotZ Libm.rounded (fin a)) = ⟨fin 1, fin 0, fin 0, fin 0⟩ := by
  have hc : Libm.rounded.cos (fin a) = fin 1 := cos_one h
  obtain ⟨s, hs, rs, s1⟩ := sin_round (a := a)
  have hs : Libm.rounded.sin (fin a) = fin s := hs
  refine ⟨?_, ?_, ?_⟩
  · rw [← C109_small ![s, 0, 0] (by intro i; fin_cases i <;> simp [rs, Rep.zero]) (by intro i; fin_cases i <;> simp [s1]) 0]
    simp [Transform.fromRotX, Rotation.fromRotX, hc, hs, Transform.ofMat, Rotation.ofMat, onePlus, neg]
  · rw [← C109_small ![0, s, 0] (by intro i; fin_cases i <;> simp [rs, Rep.zero]) (by intro i; fin_cases i <;> simp [s1]) 0]
    simp [Transform.fromRotY, Rotation.fromRotY, hc, hs, Transform.ofMat, Rotation.ofMat, onePlus, neg]
  · rw [← C109_small ![0, 0, s] (by intro i; fin_cases i <;> simp [rs, Rep.zero]) (by intro i; fin_cases i <;> simp [s1]) 0]
    simp [Transform.fromRotZ, Rotation.fromRotZ, hc, hs, Transform.ofMat, Rotation.ofMat, onePlus, neg]

/-! ### From angles -/

theorem trig3_near {a b c : F32} {x y z : ℝ} (ha : Near a x (2.01 / 16777216)) (hb : Near b y (2.01 / 16777216))
    (hc : Near c z (2.01 / 16777216)) (hx : |x| ≤ 1) (hy : |y| ≤ 1) (hz : |z| ≤ 1) :
    Near (mul (mul a b) c) (x * y * z) (8.1 / 16777216) := by
  have h := Near.mul ha hb hx hy (5.03 / 16777216) (by norm_num) (by norm_num)
  have hxy : |x * y| ≤ 1 := by rw [abs_mul]; exact mul_le_one₀ hx (abs_nonneg _) hy
  exact Near.mul h hc hxy hz _ (by norm_num) (by norm_num)

/-- quaternionFromRotation3D is within 2^-18 of the product of the quaternions of the three rotations. -/
theorem C109_angles (m : Libm) (hm : m.Accurate) (x y z : ℝ) (hx : Rep x) (hy : Rep y) (hz : Rep z) :
    ∃ r : ℍ[ℝ], Quat.fromRotation3D m ⟨fin x, fin y, fin z⟩ = Quat.ofH r ∧ RepH r ∧
      ‖r - axisQuat ![0, 0, 1] (z / 2) * axisQuat ![0, 1, 0] (y / 2) * axisQuat ![1, 0, 0] (x / 2)‖ ≤ 2 ^ (-18 : ℤ) ∧
      quatMat (axisQuat ![0, 0, 1] (z / 2) * axisQuat ![0, 1, 0] (y / 2) * axisQuat ![1, 0, 0] (x / 2)) =
        turnZ z * turnY y * turnX x := by
  have trig : ∀ a : ℝ, Rep a → Near (m.cos (mul (fin (1 / 2)) (fin a))) (Real.cos (a / 2)) (2.01 / 16777216) ∧
      Near (m.sin (mul (fin (1 / 2)) (fin a))) (Real.sin (a / 2)) (2.01 / 16777216) := fun a ha => by
    obtain ⟨b, b1, b2, b3⟩ := half_near ha
    obtain ⟨c, c1, c2, c3⟩ := hm.cos b b2
    obtain ⟨s, s1, s2, s3⟩ := hm.sin b b2
    have k1 := Real.abs_cos_sub_cos_le b (a / 2)
    have k2 := Real.abs_sin_sub_sin_le b (a / 2)
    have t1 := abs_sub_le c (Real.cos b) (Real.cos (a / 2))
    have t2 := abs_sub_le s (Real.sin b) (Real.sin (a / 2))
    rw [b1]
    norm_num at b3 c3 s3
    exact ⟨⟨c, c1, c2, by norm_num; linarith⟩, ⟨s, s1, s2, by norm_num; linarith⟩⟩
  obtain ⟨cx, sx⟩ := trig x hx
  obtain ⟨cy, sy⟩ := trig y hy
  obtain ⟨cz, sz⟩ := trig z hz
  have C := fun a : ℝ => Real.abs_cos_le_one a
  have S := fun a : ℝ => Real.abs_sin_le_one a
  have tri : ∀ {p q r : ℝ}, |p| ≤ 1 → |q| ≤ 1 → |r| ≤ 1 → |p * q * r| ≤ 1 := fun h1 h2 h3 => by
    rw [abs_mul, abs_mul]
    exact mul_le_one₀ (mul_le_one₀ h1 (abs_nonneg _) h2) (abs_nonneg _) h3
  have two : ∀ {p q : ℝ}, |p| ≤ 1 → |q| ≤ 1 → |p + q| ≤ 2 := fun h1 h2 => (abs_add_le _ _).trans (by linarith)
  have two' : ∀ {p q : ℝ}, |p| ≤ 1 → |q| ≤ 1 → |p - q| ≤ 2 := fun h1 h2 => (abs_sub _ _).trans (by linarith)
  obtain ⟨w, w1, w2, w3⟩ := Near.add (trig3_near cz cy cx (C _) (C _) (C _)) (trig3_near sz sy sx (S _) (S _) (S _))
    (two (tri (C _) (C _) (C _)) (tri (S _) (S _) (S _))) (18.3 / 16777216) (by norm_num) (by norm_num)
  obtain ⟨i, i1, i2, i3⟩ := Near.sub (trig3_near cz cy sx (C _) (C _) (S _)) (trig3_near sz sy cx (S _) (S _) (C _))
    (two' (tri (C _) (C _) (S _)) (tri (S _) (S _) (C _))) (18.3 / 16777216) (by norm_num) (by norm_num)
  obtain ⟨j, j1, j2, j3⟩ := Near.add (trig3_near cz sy cx (C _) (S _) (C _)) (trig3_near cy sz sx (C _) (S _) (S _))
    (two (tri (C _) (S _) (C _)) (tri (C _) (S _) (S _))) (18.3 / 16777216) (by norm_num) (by norm_num)
  obtain ⟨k, k1, k2, k3⟩ := Near.sub (trig3_near cy sz cx (C _) (S _) (C _)) (trig3_near cz sy sx (C _) (S _) (S _))
    (two' (tri (C _) (S _) (C _)) (tri (C _) (S _) (S _))) (18.3 / 16777216) (by norm_num) (by norm_num)
  have ep : axisQuat ![0, 0, 1] (z / 2) * axisQuat ![0, 1, 0] (y / 2) * axisQuat ![1, 0, 0] (x / 2) =
      quat (Real.cos (z / 2) * Real.cos (y / 2) * Real.cos (x / 2) + Real.sin (z / 2) * Real.sin (y / 2) * Real.sin (x / 2))
        (Real.cos (z / 2) * Real.cos (y / 2) * Real.sin (x / 2) - Real.sin (z / 2) * Real.sin (y / 2) * Real.cos (x / 2))
        (Real.cos (z / 2) * Real.sin (y / 2) * Real.cos (x / 2) + Real.cos (y / 2) * Real.sin (z / 2) * Real.sin (x / 2))
        (Real.cos (y / 2) * Real.sin (z / 2) * Real.cos (x / 2) - Real.cos (z / 2) * Real.sin (y / 2) * Real.sin (x / 2)) := by
    ext <;> simp only [axisQuat, qv, re_mul, imI_mul, imJ_mul, imK_mul, quat_re, quat_imI, quat_imJ, quat_imK] <;> simp <;> first | ring1 | (left; ring1)
  refine ⟨⟨w, i, j, k⟩, ?_, ⟨w2, i2, j2, k2⟩, ?_, ?_⟩
  · simp only [Quat.fromRotation3D, Quat.ofH, w1, i1, j1, k1]
  · rw [ep]
    exact (hnorm_le (m := 18.3 / 16777216) w3 i3 j3 k3).trans (by norm_num)
  · have u1 : vlen ![1, 0, 0] = 1 := by simp [vlen, Fin.sum_univ_three]
    have u2 : vlen ![0, 1, 0] = 1 := by simp [vlen, Fin.sum_univ_three]
    have u3 : vlen ![0, 0, 1] = 1 := by simp [vlen, Fin.sum_univ_three]
    rw [quatMat_mul, quatMat_mul, axisQuat_mat u1, axisQuat_mat u2, axisQuat_mat u3, mul_div_cancel₀ _ two_ne_zero,
      mul_div_cancel₀ _ two_ne_zero, mul_div_cancel₀ _ two_ne_zero]
    rfl

/-- The matrix and the angles of the quaternion made from angles. -/
theorem C109_roundtrip (m : Libm) (hm : m.Accurate) (x y z : ℝ) (hx : Rep x) (hy : Rep y) (hz : Rep z) :
    (∃ B, (Quat.fromRotation3D m ⟨fin x, fin y, fin z⟩).toRotation = Rotation.ofMat B ∧
      fro (B - turnZ z * turnY y * turnX x) ≤ 2 ^ (-14 : ℤ)) ∧
    ∃ x' y' z', Quat.toRotation3D m (Quat.fromRotation3D m ⟨fin x, fin y, fin z⟩) = ⟨fin x', fin y', fin z'⟩ ∧
      |x'| ≤ 4 ∧ |y'| ≤ 4 ∧ |z'| ≤ 4 ∧
      fro (turnZ z' * turnY y' * turnX x' - turnZ z * turnY y * turnX x) ≤ 2 ^ (-10 : ℤ) := by
  obtain ⟨r, h1, -, h2, h3⟩ := C109_angles m hm x y z hx hy hz
  have u1 : vlen ![1, 0, 0] = 1 := by simp [vlen, Fin.sum_univ_three]
  have u2 : vlen ![0, 1, 0] = 1 := by simp [vlen, Fin.sum_univ_three]
  have u3 : vlen ![0, 0, 1] = 1 := by simp [vlen, Fin.sum_univ_three]
  have hn : ‖axisQuat ![0, 0, 1] (z / 2) * axisQuat ![0, 1, 0] (y / 2) * axisQuat ![1, 0, 0] (x / 2)‖ = 1 := by
    rw [norm_mul, norm_mul, axisQuat_norm u1, axisQuat_norm u2, axisQuat_norm u3, mul_one, mul_one]
  obtain ⟨-, B, b1, b2, b3⟩ := C83_rotation r _ _ hn h2 (by norm_num)
  rw [h3] at b3
  have b4 : fro (B - turnZ z * turnY y * turnX x) ≤ 2 ^ (-14 : ℤ) := b3.trans (by norm_num)
  obtain ⟨x', y', z', k1, -, -, -, k2, k3, k4, k5⟩ := C86_euler m hm B _ b2
    (((turnZ_rot z).mul (turnY_rot y)).mul (turnX_rot x)) _ b4 (by norm_num)
  rw [h1]
  refine ⟨⟨B, b1, b4⟩, x', y', z', ?_, k2, k3, k4, k5.trans (by norm_num)⟩
  rw [Quat.toRotation3D, b1, k1]

/-! ### Examples -/

/-- A quarter turn: the quaternion is that of the rotation within 2^-8, and has unit length within 2^-20. -/
example : ∃ (p r : ℍ[ℝ]) (B : Mat3), ‖p‖ = 1 ∧ quatMat p = !![0, -1, 0; 1, 0, 0; 0, 0, 1] ∧
    Quat.fromTransform (Transform.ofMat !![0, -1, 0; 1, 0, 0; 0, 0, 1] ![5, 6, 7]) = Quat.ofH r ∧
    ‖r - p‖ ≤ 4 * √(0 + 2 ^ (-21 : ℤ)) ∧
    (Displacement.fromTransform (Transform.ofMat !![0, -1, 0; 1, 0, 0; 0, 0, 1] ![5, 6, 7])).toTransform =
      Transform.ofMat B ![5, 6, 7] ∧
    fro (B - !![0, -1, 0; 1, 0, 0; 0, 0, 1]) ≤ 50 * √(0 + 2 ^ (-21 : ℤ)) := by
  obtain ⟨p, r, B, h1, h2, h3, h4, -, h5, h6⟩ := C109_back !![0, -1, 0; 1, 0, 0; 0, 0, 1] !![0, -1, 0; 1, 0, 0; 0, 0, 1]
    (by intro i j; fin_cases i <;> fin_cases j <;> simp [Rep.zero, Rep.one, Rep.one.neg]) ![5, 6, 7]
    ⟨by ext i j; fin_cases i <;> fin_cases j <;> simp [Matrix.mul_apply, Fin.sum_univ_three], by simp [Matrix.det_fin_three]⟩
    0 (by positivity) (by simp) (by simp; norm_num)
  exact ⟨p, r, B, h1, h2, h3, h4, h5, h6⟩

/-- A half turn about the third axis: the scalar part is below 2^-10, the sign of the axis is not determined. -/
example : ∃ (q : ℝ) (y : Vec3) (σ : ℝ), Quat.fromTransform (Transform.ofMat !![-1, 0, 0; 0, -1, 0; 0, 0, 1] 0) = Quat.ofH (qv q y) ∧
    |q ^ 2 - 0 ^ 2| ≤ 0 + 2 ^ (-21 : ℤ) ∧ vlen (y - σ • (![0, 0, 1] : Vec3)) * vlen ![0, 0, 1] ≤ 13 * (0 + 2 ^ (-21 : ℤ)) := by
  have u : vlen ![0, 0, 1] = 1 := by simp [vlen, Fin.sum_univ_three]
  have hu : ‖qv 0 ![0, 0, 1]‖ = 1 := by
    refine (pow_left_inj₀ (norm_nonneg _) zero_le_one two_ne_zero).1 ?_
    rw [qv_norm_sq, u]
    norm_num
  obtain ⟨q, y, σ, h1, -, -, -, h2, h3, -⟩ := C109_matrix !![-1, 0, 0; 0, -1, 0; 0, 0, 1]
    (by intro i j; fin_cases i <;> fin_cases j <;> simp [Rep.zero, Rep.one, Rep.one.neg]) 0 0 ![0, 0, 1] le_rfl hu 0
    (by positivity) (by intro i j; rw [quatMat_eq hu]; fin_cases i <;> fin_cases j <;> simp [polyMat, qv] <;> norm_num)
    (by rw [u]; norm_num)
  exact ⟨q, y, σ, h1, h2, h3⟩

/-- The default tolerance of isTransform is above 99e-6. -/
example : Transform.isTransform (Transform.ofMat ((1 + 2 ^ (-17 : ℤ) : ℝ) • (1 : Mat3)) 0) (fin (1 / 8192)) = true :=
  (C109_nan_accepted 0 (1 / 8192) ⟨1, -13, by norm_num, by norm_num, by norm_num, by norm_num⟩ (by norm_num)).1

/-- A diagonal of 5/4, 1, 1. -/
example : Quat.fromTransform (Transform.ofMat !![5 / 4, 0, 0; 0, 1, 0; 0, 0, 1] 0) = ⟨fin 1, fin 0, fin 0, fin 0⟩ ∨
    ∃ q, 1 < q ∧ Quat.fromTransform (Transform.ofMat !![5 / 4, 0, 0; 0, 1, 0; 0, 0, 1] 0) = ⟨fin q, nan, nan, nan⟩ :=
  C109_nan _ (by
    have : Rep (5 / 4) := ⟨5, -2, by norm_num, by norm_num, by norm_num, by norm_num⟩
    intro i j; fin_cases i <;> fin_cases j <;> simp [this, Rep.zero, Rep.one]) 0
    (by intro i; fin_cases i <;> simp [abs_le] <;> norm_num) (by simp; norm_num)

/-- An eighth of a turn, scaled by √2, is taken for the identity. -/
example : Quat.fromTransform (Transform.ofMat !![1, -1, 0; 1, 1, 0; 0, 0, 1] 0) = ⟨fin 1, fin 0, fin 0, fin 0⟩ := by
  rw [← C109_small ![0, 0, 1] (by intro i; fin_cases i <;> simp [Rep.zero, Rep.one]) (by intro i; fin_cases i <;> simp) 0]
  simp [onePlus]

/-- A rotation by 2^-13 rad. -/
example : Quat.fromTransform (Transform.fromRotZ Libm.rounded (fin (2 ^ (-13 : ℤ)))) = ⟨fin 1, fin 0, fin 0, fin 0⟩ :=
  (C109_small_turn _ (abs_of_pos (by positivity)).le).2.2

/-- Angles of 1, 2 and -1 rad, to a quaternion and back. -/
example : ∃ x' y' z', Quat.toRotation3D Libm.rounded (Quat.fromRotation3D Libm.rounded ⟨fin 1, fin 2, fin (-1)⟩) =
      ⟨fin x', fin y', fin z'⟩ ∧
    fro (turnZ z' * turnY y' * turnX x' - turnZ (-1) * turnY 2 * turnX 1) ≤ 2 ^ (-10 : ℤ) := by
  obtain ⟨x', y', z', h1, -, -, -, h2⟩ := (C109_roundtrip Libm.rounded rounded_accurate 1 2 (-1) Rep.one
    ⟨2, 0, by norm_num, by norm_num, by norm_num, by norm_num⟩ Rep.one.neg).2
  exact ⟨x', y', z', h1, h2⟩

/-- The quaternion of these angles. -/
example : ∃ r : ℍ[ℝ], Quat.fromRotation3D Libm.rounded ⟨fin 1, fin 2, fin (-1)⟩ = Quat.ofH r ∧
    ‖r - axisQuat ![0, 0, 1] (-1 / 2) * axisQuat ![0, 1, 0] (2 / 2) * axisQuat ![1, 0, 0] (1 / 2)‖ ≤ 2 ^ (-18 : ℤ) := by
  obtain ⟨r, h1, -, h2, -⟩ := C109_angles Libm.rounded rounded_accurate 1 2 (-1) Rep.one
    ⟨2, 0, by norm_num, by norm_num, by norm_num, by norm_num⟩ Rep.one.neg
  exact ⟨r, h1, h2⟩

end AlMath.F32
