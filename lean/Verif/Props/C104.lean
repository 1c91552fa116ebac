import Verif.Props.C102

/-!
C104: the logarithm in single precision for rotations whose sine is below the threshold: half turns and small rotations.
-/

namespace AlMath.F32

open AlMath.Spec NormedSpace Spec Matrix

theorem add_eval {a b c : ℝ} (h : a + b = c) (hc : Rep c) : add (fin a) (fin b) = fin c := by
  rw [add, h, round_rep hc]

theorem sub_eval {a b c : ℝ} (h : a - b = c) (hc : Rep c) : sub (fin a) (fin b) = fin c := by
  rw [sub, neg, add, ← sub_eq_add_neg, h, round_rep hc]

theorem mul_eval {a b c : ℝ} (h : a * b = c) (hc : Rep c) : mul (fin a) (fin b) = fin c := by
  rw [mul, h, round_rep hc]

theorem rep_two : Rep 2 := ⟨1, 1, by norm_num, by norm_num, by norm_num, by norm_num⟩

/-- The sine and the cosine of a symmetric matrix with integer trace -1. -/
theorem half_si (r : Rotation) (x y z : ℝ) (h1 : r.r23 = r.r32) (h2 : r.r31 = r.r13) (h3 : r.r12 = r.r21)
    (k1 : r.r32 = fin x) (k2 : r.r13 = fin y) (k3 : r.r21 = fin z) : logSi r = fin 0 := by
  have h0 : ∀ x : ℝ, sub (fin x) (fin x) = fin 0 := fun x => sub_eval (sub_self x) Rep.zero
  have hs : sqrt (fin 0) = fin 0 := by
    rw [sqrt, if_neg (lt_irrefl _), Real.sqrt_zero, round_rep Rep.zero]
  rw [logSi, h1, h2, h3, k1, k2, k3]
  simp only [h0, mul_zero_fin, add_zero_fin Rep.zero, hs]

/-- The threshold of the diagonal. -/
theorem half_threshold : ∃ κ ρ σ : ℝ, round 0.001 = fin κ ∧ 0 < κ ∧ sub (fin 1) (fin κ) = fin ρ ∧ 0.9989 < ρ ∧ ρ < 0.9991 ∧
    add (fin (-1)) (fin κ) = fin σ ∧ -0.9991 < σ ∧ σ < -0.9989 := by
  obtain ⟨κ, eκ, κ1, κ2⟩ := threshold
  norm_num at κ1 κ2
  have b : |1 - κ| ≤ 1 := by rw [abs_le]; constructor <;> linarith
  have b' : |-1 + κ| ≤ 1 := by rw [abs_le]; constructor <;> linarith
  refine ⟨κ, _, _, eκ, by linarith, sub_fin (b.trans (by norm_num)), ?_, ?_, add_fin (b'.trans (by norm_num)), ?_, ?_⟩
  · have := (abs_le.1 (rnd_bnd (1 - κ))).1
    norm_num at this ⊢
    linarith
  · have := (abs_le.1 (rnd_bnd (1 - κ))).2
    norm_num at this ⊢
    linarith
  · have := (abs_le.1 (rnd_bnd (-1 + κ))).1
    norm_num at this ⊢
    linarith
  · have := (abs_le.1 (rnd_bnd (-1 + κ))).2
    norm_num at this ⊢
    linarith

theorem rnd_pos_bnd {x : ℝ} (h : 0 ≤ x) : x - (1 / 16777216 * x + 1 / 10 ^ 25) ≤ rnd x ∧ rnd x ≤ x + (1 / 16777216 * x + 1 / 10 ^ 25) := by
  have := abs_le.1 (rnd_bnd x)
  rw [abs_of_nonneg h] at this
  constructor <;> linarith

/-- What is left of `1 - lambda * angle * angle` for an angle of pi. -/
theorem half_one : Near (sub (fin 1) (mul (mul (div (fin 1) (mul (fin piF) (fin piF))) (fin piF)) (fin piF))) 0 (1 / 10 ^ 6) := by
  have big : ∀ {x : ℝ}, 0 ≤ x → x ≤ 100 → |x| ≤ 2 ^ 127 := fun h1 h2 => by
    rw [abs_of_nonneg h1]
    exact h2.trans (by norm_num)
  have q : piF = 13176795 / 4194304 := rfl
  rw [q]
  obtain ⟨a1, a2⟩ := rnd_pos_bnd (x := 13176795 / 4194304 * (13176795 / 4194304)) (by norm_num)
  rw [mul_fin (big (by norm_num) (by norm_num))]
  generalize rnd (13176795 / 4194304 * (13176795 / 4194304)) = a at *
  have a1 : 9.8696043 ≤ a := by norm_num at a1 ⊢; linarith
  have a2 : a ≤ 9.8696057 := by norm_num at a2 ⊢; linarith
  have a0 : 0 < a := by norm_num at a1; linarith
  have i1 : 1 / a ≤ 1 / 9.8696043 := one_div_le_one_div_of_le (by norm_num) a1
  have i2 : 1 / 9.8696057 ≤ 1 / a := one_div_le_one_div_of_le a0 a2
  have i0 : 0 ≤ 1 / a := by positivity
  have ed : div (fin 1) (fin a) = fin (rnd (1 / a)) := by
    rw [div, if_neg a0.ne']
    exact round_fin (big i0 (by norm_num at i1 ⊢; linarith))
  rw [ed]
  obtain ⟨b1, b2⟩ := rnd_pos_bnd i0
  generalize 1 / a = i at *
  generalize rnd i = b at *
  have b1 : 0.101321164 ≤ b := by norm_num at b1 i2 ⊢; linarith
  have b2 : b ≤ 0.1013211928 := by norm_num at b2 i1 ⊢; linarith
  have c0 : 0 ≤ b * (13176795 / 4194304) := by norm_num at b1; linarith
  rw [mul_fin (big c0 (by norm_num at b2; linarith))]
  obtain ⟨c1, c2⟩ := rnd_pos_bnd c0
  generalize rnd (b * (13176795 / 4194304)) = c at *
  have c1 : 0.3183098 ≤ c := by norm_num at c1 b1 ⊢; linarith
  have c2 : c ≤ 0.31830996 := by norm_num at c2 b2 ⊢; linarith
  have d0 : 0 ≤ c * (13176795 / 4194304) := by norm_num at c1; linarith
  rw [mul_fin (big d0 (by norm_num at c2; linarith))]
  obtain ⟨d1, d2⟩ := rnd_pos_bnd d0
  generalize rnd (c * (13176795 / 4194304)) = d at *
  have d1 : 1 - 4 / 10 ^ 7 ≤ d := by norm_num at d1 c1 ⊢; linarith
  have d2 : d ≤ 1 + 4 / 10 ^ 7 := by norm_num at d2 c2 ⊢; linarith
  have e : |1 - d| ≤ 4 / 10 ^ 7 := abs_le.2 ⟨by linarith, by linarith⟩
  have e' : |1 - d| ≤ 2 ^ 127 := e.trans (by norm_num)
  rw [sub_fin e']
  refine ⟨_, rfl, rnd_rep e', ?_⟩
  have k := le_of_err (rnd_bnd (1 - d))
  rw [sub_zero]
  norm_num at k e ⊢
  linarith

theorem half_coef : Near (mul (fin 0.5) (fin piF)) (Real.pi / 2) (1 / 10 ^ 6) ∧
    Near (mul (fin (-0.5)) (fin piF)) (-(Real.pi / 2)) (1 / 10 ^ 6) := by
  have q : piF = 13176795 / 4194304 := rfl
  have r : Rep (13176795 / 8388608) := ⟨13176795, -23, by norm_num, by norm_num, by norm_num, by norm_num⟩
  have e1 := mul_eval (a := 0.5) (b := piF) (c := 13176795 / 8388608) (by rw [q]; norm_num) r
  have e2 := mul_eval (a := -0.5) (b := piF) (c := -(13176795 / 8388608)) (by rw [q]; norm_num) r.neg
  have p1 := Real.pi_gt_d6
  have p2 := Real.pi_lt_d6
  have k : |(13176795 / 8388608 : ℝ) - Real.pi / 2| ≤ 1 / 10 ^ 6 := by
    norm_num at p1 p2
    rw [abs_le]
    constructor <;> norm_num <;> linarith
  refine ⟨⟨_, e1, r, k⟩, ⟨_, e2, r.neg, ?_⟩⟩
  rw [← neg_sub', abs_neg]
  exact k

/-- A combination of two coordinates of the translation. -/
theorem half_pair {f g : F32} {x y J K V : ℝ} (hf : Near f J (1 / 10 ^ 6)) (hg : Near g K (1 / 10 ^ 6)) (hJ : |J| ≤ 1.6)
    (hK : |K| ≤ 1.6) (hx : |x| ≤ V) (hy : |y| ≤ V) (hV : V ≤ 2 ^ 60) :
    Near (add (mul f (fin x)) (mul g (fin y))) (J * x + K * y) (2 ^ (-18 : ℤ) * V + 2 ^ (-80 : ℤ)) := by
  have V0 := (abs_nonneg _).trans hx
  have h1 := term_near hf (hJ.trans (by norm_num)) hx hV (by norm_num) (θ := 1.2 / 10 ^ 6 * V + 1 / 10 ^ 25) (by norm_num; linarith)
  have h2 := term_near hg (hK.trans (by norm_num)) hy hV (by norm_num) (θ := 1.2 / 10 ^ 6 * V + 1 / 10 ^ 25) (by norm_num; linarith)
  refine Near.sum h1 h2 (M := 3.2 * V) ?_ (by norm_num at hV ⊢; linarith) (by norm_num; linarith)
  refine (abs_add_le _ _).trans ?_
  rw [abs_mul, abs_mul]
  have := mul_le_mul hJ hx (abs_nonneg _) (by norm_num)
  have := mul_le_mul hK hy (abs_nonneg _) (by norm_num)
  norm_num at *
  linarith

/-- The same with a difference. -/
theorem half_pair_sub {f g : F32} {x y J K V : ℝ} (hf : Near f J (1 / 10 ^ 6)) (hg : Near g K (1 / 10 ^ 6)) (hJ : |J| ≤ 1.6)
    (hK : |K| ≤ 1.6) (hx : |x| ≤ V) (hy : |y| ≤ V) (hV : V ≤ 2 ^ 60) :
    Near (sub (mul f (fin x)) (mul g (fin y))) (J * x - K * y) (2 ^ (-18 : ℤ) * V + 2 ^ (-80 : ℤ)) := by
  have V0 := (abs_nonneg _).trans hx
  have h1 := term_near hf (hJ.trans (by norm_num)) hx hV (by norm_num) (θ := 1.2 / 10 ^ 6 * V + 1 / 10 ^ 25) (by norm_num; linarith)
  have h2 := term_near hg (hK.trans (by norm_num)) hy hV (by norm_num) (θ := 1.2 / 10 ^ 6 * V + 1 / 10 ^ 25) (by norm_num; linarith)
  rw [sub, sub_eq_add_neg]
  refine Near.sum h1 h2.neg (M := 3.2 * V) ?_ (by norm_num at hV ⊢; linarith) (by norm_num; linarith)
  refine (abs_add_le _ _).trans ?_
  rw [abs_neg, abs_mul, abs_mul]
  have := mul_le_mul hJ hx (abs_nonneg _) (by norm_num)
  have := mul_le_mul hK hy (abs_nonneg _) (by norm_num)
  norm_num at *
  linarith

/-- The half turns about the axes: the angular velocity is pi times the axis, and the linear velocity is accurate. -/
theorem C104_half_turn {atan2 : F32 → F32 → F32} (ha : atan2 (fin 0) (fin (-1)) = fin piF) (pow2 : F32 → F64) (x y z V : ℝ)
    (hx : |x| ≤ V) (hy : |y| ≤ V) (hz : |z| ≤ V) (hV : V ≤ 2 ^ 60) :
    (∃ b c, transformLogarithm atan2 pow2 (Transform.ofMat !![1, 0, 0; 0, -1, 0; 0, 0, -1] ![x, y, z]) =
        ⟨fin x, fin b, fin c, fin piF, fin 0, fin 0⟩ ∧ |b - Real.pi / 2 * z| ≤ 2 ^ (-18 : ℤ) * V + 2 ^ (-80 : ℤ) ∧
        |c + Real.pi / 2 * y| ≤ 2 ^ (-18 : ℤ) * V + 2 ^ (-80 : ℤ)) ∧
    (∃ a c, transformLogarithm atan2 pow2 (Transform.ofMat !![-1, 0, 0; 0, 1, 0; 0, 0, -1] ![x, y, z]) =
        ⟨fin a, fin y, fin c, fin 0, fin piF, fin 0⟩ ∧ |a + Real.pi / 2 * z| ≤ 2 ^ (-18 : ℤ) * V + 2 ^ (-80 : ℤ) ∧
        |c - Real.pi / 2 * x| ≤ 2 ^ (-18 : ℤ) * V + 2 ^ (-80 : ℤ)) ∧
    (∃ a b, transformLogarithm atan2 pow2 (Transform.ofMat !![-1, 0, 0; 0, -1, 0; 0, 0, 1] ![x, y, z]) =
        ⟨fin a, fin b, fin z, fin 0, fin 0, fin piF⟩ ∧ |a - Real.pi / 2 * y| ≤ 2 ^ (-18 : ℤ) * V + 2 ^ (-80 : ℤ) ∧
        |b + Real.pi / 2 * x| ≤ 2 ^ (-18 : ℤ) * V + 2 ^ (-80 : ℤ)) := by
  obtain ⟨κ, ρ, σ, eκ, κ0, eρ, ρ1, ρ2, eσ, σ1, σ2⟩ := half_threshold
  norm_num at ρ1 ρ2 σ1 σ2
  have ho := half_one
  obtain ⟨hh, hm⟩ := half_coef
  have pi2 : |Real.pi / 2| ≤ 1.6 := by
    rw [abs_of_pos (by positivity)]
    have := Real.pi_lt_d6
    norm_num at this ⊢
    linarith
  have r1 : Rep (-1) := Rep.one.neg
  have r2 : Rep (-2) := rep_two.neg
  have l0 : lt (fin 0) (fin κ) := κ0
  have l1 : ¬ lt (fin ρ) (fin (-1)) := by simp only [lt]; linarith
  have l2 : lt (fin (-1)) (fin σ) := by simp only [lt]; linarith
  have l3 : lt (fin ρ) (fin 1) := by simp only [lt]; linarith
  have z3 : |(0 : ℝ)| ≤ 1.6 := by norm_num
  have c1 : add (fin 1) (fin (-1)) = fin 0 := add_eval (by norm_num) Rep.zero
  have c2 : add (fin (-1)) (fin 1) = fin 0 := add_eval (by norm_num) Rep.zero
  have c3 : add (fin (-1)) (fin (-1)) = fin (-2) := add_eval (by norm_num) r2
  have c4 : add (fin 0) (fin (-1)) = fin (-1) := add_eval (by norm_num) r1
  have c5 : add (fin (-2)) (fin 1) = fin (-1) := add_eval (by norm_num) r1
  have c6 : sub (fin (-1)) (fin 1) = fin (-2) := sub_eval (by norm_num) r2
  have c7 : mul (fin 0.5) (fin (-2)) = fin (-1) := mul_eval (by norm_num) r1
  refine ⟨?_, ?_, ?_⟩
  · obtain ⟨b, eb, -, hb⟩ := half_pair ho hh z3 pi2 hy hz hV
    obtain ⟨c, ec, -, hc⟩ := half_pair hm ho (by rwa [abs_neg]) z3 hy hz hV
    refine ⟨b, c, ?_, by simpa using hb, by simpa using hc⟩
    have e1 : logSi (Transform.ofMat !![1, 0, 0; 0, -1, 0; 0, 0, -1] ![x, y, z]).r = fin 0 :=
      half_si _ 0 0 0 rfl rfl rfl rfl rfl rfl
    have e2 : logCo (Transform.ofMat !![1, 0, 0; 0, -1, 0; 0, 0, -1] ![x, y, z]).r = fin (-1) := by
      simp [logCo, Transform.ofMat, Rotation.ofMat, c1, c4, c6, c7]
    rw [transformLogarithm, transformLogarithmInPlace, if_pos (by rw [e1, eκ]; exact l0), if_neg (by rw [e2, eκ, eρ]; exact l1),
      if_pos (by rw [e2, eκ, eσ]; exact l2), if_pos (by rw [eκ, eρ]; exact l3), e1, e2, ha, ← eb, ← ec]
    rfl
  · obtain ⟨a, ea, -, ha'⟩ := half_pair_sub ho hh z3 pi2 hx hz hV
    obtain ⟨c, ec, -, hc⟩ := half_pair hh ho pi2 z3 hx hz hV
    refine ⟨a, c, ?_, by simpa using ha', by simpa using hc⟩
    have e1 : logSi (Transform.ofMat !![-1, 0, 0; 0, 1, 0; 0, 0, -1] ![x, y, z]).r = fin 0 :=
      half_si _ 0 0 0 rfl rfl rfl rfl rfl rfl
    have e2 : logCo (Transform.ofMat !![-1, 0, 0; 0, 1, 0; 0, 0, -1] ![x, y, z]).r = fin (-1) := by
      simp [logCo, Transform.ofMat, Rotation.ofMat, c2, c4, c6, c7]
    rw [transformLogarithm, transformLogarithmInPlace, if_pos (by rw [e1, eκ]; exact l0), if_neg (by rw [e2, eκ, eρ]; exact l1),
      if_pos (by rw [e2, eκ, eσ]; exact l2), if_neg (by rw [eκ, eρ]; exact l1), if_pos (by rw [eκ, eρ]; exact l3), e1, e2, ha, ← ea, ← ec]
    rfl
  · obtain ⟨a, ea, -, ha'⟩ := half_pair ho hh z3 pi2 hx hy hV
    obtain ⟨b, eb, -, hb⟩ := half_pair hm ho (by rwa [abs_neg]) z3 hx hy hV
    refine ⟨a, b, ?_, by simpa using ha', by simpa using hb⟩
    have e1 : logSi (Transform.ofMat !![-1, 0, 0; 0, -1, 0; 0, 0, 1] ![x, y, z]).r = fin 0 :=
      half_si _ 0 0 0 rfl rfl rfl rfl rfl rfl
    have e2 : logCo (Transform.ofMat !![-1, 0, 0; 0, -1, 0; 0, 0, 1] ![x, y, z]).r = fin (-1) := by
      simp [logCo, Transform.ofMat, Rotation.ofMat, c3, c5, c6, c7]
    rw [transformLogarithm, transformLogarithmInPlace, if_pos (by rw [e1, eκ]; exact l0), if_neg (by rw [e2, eκ, eρ]; exact l1),
      if_pos (by rw [e2, eκ, eσ]; exact l2), if_neg (by rw [eκ, eρ]; exact l1),
      if_neg (by rw [eκ, eρ]; exact l1), if_pos (by rw [eκ, eρ]; exact l3), e1, e2, ha, ← ea, ← eb]
    rfl

/-- Every other half turn whose matrix is symmetric is lost: with no element of the diagonal above 0.998 the angular velocity keeps
its previous value, and the linear velocity is the translation. -/
theorem C104_half_turn_lost {atan2 : F32 → F32 → F32} (pow2 : F32 → F64) (hp : pow2 (fin 0) = fin 0)
    (a b c d e f x y z γ : ℝ) (ha : a ≤ 0.998) (hb : b ≤ 0.998) (hc : c ≤ 0.998) (hx : Rep x) (hy : Rep y) (hz : Rep z)
    (hγ : mul (fin 0.5) (sub (add (add (fin a) (fin b)) (fin c)) (fin 1)) = fin γ) (hγ1 : γ ≤ -0.9992)
    (ht : atan2 (fin 0) (fin γ) = fin piF) (v : Velocity6D) :
    transformLogarithmInPlace atan2 pow2 (Transform.ofMat !![a, d, e; d, b, f; e, f, c] ![x, y, z]) v =
      ⟨fin x, fin y, fin z, v.wxd, v.wyd, v.wzd⟩ := by
  obtain ⟨κ, ρ, σ, eκ, κ0, eρ, ρ1, ρ2, eσ, σ1, σ2⟩ := half_threshold
  norm_num at ρ1 ρ2 σ1 σ2 ha hb hc hγ1
  have e1 : logSi (Transform.ofMat !![a, d, e; d, b, f; e, f, c] ![x, y, z]).r = fin 0 :=
    half_si _ f e d rfl rfl rfl rfl rfl rfl
  have e2 : logCo (Transform.ofMat !![a, d, e; d, b, f; e, f, c] ![x, y, z]).r = fin γ := hγ
  have l0 : lt (fin 0) (fin κ) := κ0
  have l1 : ¬ lt (fin ρ) (fin γ) := by simp only [lt]; linarith
  have l2 : lt (fin γ) (fin σ) := by simp only [lt]; linarith
  rw [transformLogarithmInPlace, if_pos (by rw [e1, eκ]; exact l0), if_neg (by rw [e2, eκ, eρ]; exact l1),
    if_pos (by rw [e2, eκ, eσ]; exact l2),
    if_neg (by rw [eκ, eρ]; change ¬ ρ < a; linarith), if_neg (by rw [eκ, eρ]; change ¬ ρ < b; linarith),
    if_neg (by rw [eκ, eρ]; change ¬ ρ < c; linarith), e1, e2, ht]
  have h0 : ∀ x : ℝ, sub (fin x) (fin x) = fin 0 := fun x => sub_eval (sub_self x) Rep.zero
  obtain ⟨q, eq⟩ : ∃ q, logLambda (fin 0) (fin γ) (fin piF) = fin q := by
    have q : piF = 13176795 / 4194304 := rfl
    obtain ⟨κ', eκ', κ1, κ2⟩ := threshold
    norm_num at κ1 κ2
    unfold logLambda
    rw [eκ', if_neg (by simp only [lt]; rw [q]; norm_num; linarith), if_pos]
    · exact ⟨_, round_fin (by rw [abs_of_pos (by norm_num)]; norm_num)⟩
    · left
      have b : |piF - κ'| ≤ 4 := by rw [q, abs_le]; constructor <;> linarith
      rw [sub_fin (b.trans (by norm_num))]
      simp only [lt]
      have k := rnd_pos_bnd (x := piF - κ') (by rw [q]; linarith)
      rw [q] at k ⊢
      norm_num at k ⊢
      linarith [k.2]
  have e5 : F64.toFloat (fin 0) = fin 0 := round_rep Rep.zero
  unfold logTail
  rw [hp, e5, eq]
  simp [Transform.ofMat, Rotation.ofMat, h0, mul_zero_fin, zero_mul_fin, add_zero_fin Rep.zero, zero_add_fin Rep.one, mul_one_fin hx,
    mul_one_fin hy, mul_one_fin hz, zero_add_fin hx, add_zero_fin hy, add_zero_fin hz]

theorem rep_double {s : ℝ} (h : Rep s) (h1 : |s| ≤ 1) : Rep (2 * s) := by
  obtain ⟨m, e, h1', h2, h3⟩ := h.grid
  refine grid_rep ⟨m, e + 1, h1', by omega, ?_⟩ ?_
  · rw [h3, zpow_add_one₀ two_ne_zero]
    ring
  · rw [abs_mul, abs_two]
    have : (2 : ℝ) * 1 < 2 ^ 128 := by norm_num
    linarith

/-- `atan2` of a small sine and a cosine of one. -/
theorem arg_small {s : ℝ} (h0 : 0 < s) (h1 : s ≤ 0.001) : 0.999 * s ≤ Complex.arg ⟨1, s⟩ ∧ Complex.arg ⟨1, s⟩ ≤ s := by
  have a0 : 0 ≤ Complex.arg ⟨1, s⟩ := Complex.arg_nonneg_iff.2 h0.le
  have a1 : Complex.arg ⟨1, s⟩ < Real.pi / 2 := by
    have := (Complex.abs_arg_lt_pi_div_two_iff (z := ⟨1, s⟩)).2 (.inl one_pos)
    exact (le_abs_self _).trans_lt this
  constructor
  · have k := Real.sin_le a0
    rw [Complex.sin_arg] at k
    refine le_trans ?_ k
    have n0 : ‖(⟨1, s⟩ : ℂ)‖ ≤ 1.001 := by
      refine (Complex.norm_le_abs_re_add_abs_im _).trans ?_
      simp only [abs_of_pos h0, abs_one]
      norm_num at h1 ⊢
      linarith
    have n1 : 0 < ‖(⟨1, s⟩ : ℂ)‖ := norm_pos_iff.2 (fun h => by simpa using congrArg Complex.re h)
    rw [le_div_iff₀ n1]
    have := mul_le_mul_of_nonneg_left n0 (show 0 ≤ 0.999 * s by positivity)
    simp only
    norm_num at this ⊢
    linarith
  · have k := Real.le_tan a0 a1
    rwa [Complex.tan_arg, div_one] at k

/-- Rotations just below the threshold: for a rotation about the third axis by `s` the angular velocity is at most 0.67 `s`. -/
theorem C104_small {atan2 : F32 → F32 → F32} (ha : Atan2Accurate atan2) (pow2 : F32 → F64) (s x y z : ℝ) (hr : Rep s)
    (h0 : 0.00098 ≤ s) (h1 : s ≤ 0.00099) :
    ∃ w, (transformLogarithm atan2 pow2 (Transform.ofMat !![1, -s, 0; s, 1, 0; 0, 0, 1] ![x, y, z])).wzd = fin w ∧
      0.65 * s ≤ w ∧ w ≤ 0.67 * s := by
  obtain ⟨κ, eκ, κ1, κ2⟩ := threshold
  norm_num at κ1 κ2 h0 h1
  have s0 : 0 < s := by linarith
  have r2 : Rep (2 * s) := rep_double hr (by rw [abs_of_pos s0]; linarith)
  have d1 : sub (fin s) (fin (-s)) = fin (2 * s) := sub_eval (by ring) r2
  have n0 : neg (fin 0) = fin 0 := by simp [neg]
  have d0 : sub (fin 0) (fin 0) = fin 0 := sub_eval (by ring) Rep.zero
  have sq0 : 0 ≤ 2 * s * (2 * s) := by positivity
  have sq1 : 2 * s * (2 * s) ≤ 1 := by nlinarith
  have m1 : mul (fin (2 * s)) (fin (2 * s)) = fin (rnd (2 * s * (2 * s))) :=
    mul_fin (by rw [abs_of_nonneg sq0]; exact sq1.trans (by norm_num))
  obtain ⟨q1, q2⟩ := rnd_pos_bnd sq0
  have hq : Rep (rnd (2 * s * (2 * s))) := rnd_rep (by rw [abs_of_nonneg sq0]; exact sq1.trans (by norm_num))
  obtain ⟨si, es, si1, si2, rs⟩ : ∃ si, logSi (Transform.ofMat !![1, -s, 0; s, 1, 0; 0, 0, 1] ![x, y, z]).r = fin si ∧
      0.9999 * s ≤ si ∧ si ≤ 1.0001 * s ∧ Rep si := by
    have Q0 : 0 ≤ rnd (2 * s * (2 * s)) := by norm_num at q1; nlinarith
    have e1 : logSi (Transform.ofMat !![1, -s, 0; s, 1, 0; 0, 0, 1] ![x, y, z]).r =
        mul (fin 0.5) (sqrt (fin (rnd (2 * s * (2 * s))))) := by
      simp [logSi, Transform.ofMat, Rotation.ofMat, d0, d1, m1, mul_zero_fin, add_zero_fin Rep.zero, zero_add_fin hq]
    have l1 : 1.99999 * s ≤ √(rnd (2 * s * (2 * s))) := by
      refine Real.le_sqrt_of_sq_le ?_
      have : (1.99999 * s) ^ 2 = 3.9999600001 * s ^ 2 := by ring
      rw [this]
      have : 0.00098 ^ 2 ≤ s ^ 2 := pow_le_pow_left₀ (by norm_num) (by norm_num; linarith) 2
      norm_num at q1 this ⊢
      linarith
    have l2 : √(rnd (2 * s * (2 * s))) ≤ 2.00001 * s := by
      refine Real.sqrt_le_iff.2 ⟨by positivity, ?_⟩
      have : (2.00001 * s) ^ 2 = 4.0000400001 * s ^ 2 := by ring
      rw [this]
      have : 0.00098 ^ 2 ≤ s ^ 2 := pow_le_pow_left₀ (by norm_num) (by norm_num; linarith) 2
      norm_num at q2 this ⊢
      linarith
    rw [e1, sqrt, if_neg (not_lt.2 Q0)]
    generalize √(rnd (2 * s * (2 * s))) = t at *
    norm_num at l1 l2
    have t0 : 0 ≤ t := by linarith
    obtain ⟨p1, p2⟩ := rnd_pos_bnd t0
    rw [round_fin (by rw [abs_of_nonneg t0]; norm_num; linarith)]
    generalize rnd t = p at *
    have p0 : 0 ≤ 0.5 * p := by norm_num at p1 ⊢; linarith
    have pb : |0.5 * p| ≤ 2 ^ 127 := by
      rw [abs_of_nonneg p0]
      norm_num at p2 ⊢
      linarith
    obtain ⟨u1, u2⟩ := rnd_pos_bnd p0
    refine ⟨_, mul_fin pb, ?_, ?_, rnd_rep pb⟩
    · norm_num at u1 p1 ⊢
      linarith
    · norm_num at u2 p2 ⊢
      linarith
  have e2 : logCo (Transform.ofMat !![1, -s, 0; s, 1, 0; 0, 0, 1] ![x, y, z]).r = fin 1 := by
    have r3 : Rep 3 := ⟨3, 0, by norm_num, by norm_num, by norm_num, by norm_num⟩
    have a1 : add (fin 1) (fin 1) = fin 2 := add_eval (by norm_num) rep_two
    have a2 : add (fin 2) (fin 1) = fin 3 := add_eval (by norm_num) r3
    have a3 : sub (fin 3) (fin 1) = fin 2 := sub_eval (by norm_num) rep_two
    have a4 : mul (fin 0.5) (fin 2) = fin 1 := mul_eval (by norm_num) Rep.one
    simp [logCo, Transform.ofMat, Rotation.ofMat, a1, a2, a3, a4]
  norm_num at si1 si2
  obtain ⟨a, ea, -, hA⟩ := ha si 1 rs Rep.one (by norm_num; linarith) (by linarith) (by norm_num)
  obtain ⟨g1, g2⟩ := arg_small (s := si) (by linarith) (by norm_num; linarith)
  have a1 : 0.998 * si ≤ a ∧ a ≤ 1.001 * si := by
    have := abs_le.1 hA
    norm_num at this g1 ⊢
    constructor <;> linarith
  have t1 : lt (fin si) (fin κ) := by
    simp only [lt]; linarith
  have t2 : lt (sub (fin 1) (fin κ)) (fin 1) := by
    have b : |1 - κ| ≤ 1 := by rw [abs_le]; constructor <;> linarith
    rw [sub_fin (b.trans (by norm_num))]
    simp only [lt]
    have := (abs_le.1 (rnd_bnd (1 - κ))).2
    norm_num at this
    linarith
  rw [transformLogarithm, transformLogarithmInPlace, if_pos (by rw [es, eκ]; exact t1), if_pos (by rw [e2, eκ]; exact t2), es, e2, ea, eκ]
  change ∃ w, mul (div (fin a) (add (mul (fin 2) (fin si)) (fin κ))) (sub (fin s) (fin (-s))) = fin w ∧ _
  rw [d1]
  clear hA g1 g2 q1 q2 hq m1 es ea e2
  have big : ∀ {x : ℝ}, 0 ≤ x → x ≤ 1 → |x| ≤ 2 ^ 127 := fun h1 h2 => by
    rw [abs_of_nonneg h1]
    exact h2.trans (by norm_num)
  have f0 : 0 ≤ 2 * si := by linarith
  obtain ⟨f1, f2⟩ := rnd_pos_bnd f0
  rw [mul_fin (big f0 (by linarith))]
  generalize rnd (2 * si) = f at *
  norm_num at f1 f2 a1
  have g0 : 0 ≤ f + κ := by linarith
  obtain ⟨g1, g2⟩ := rnd_pos_bnd g0
  rw [add_fin (big g0 (by linarith))]
  generalize rnd (f + κ) = D at *
  norm_num at g1 g2
  have D0 : 0 < D := by linarith
  have k1 : 0.3257 ≤ a / D := by
    rw [le_div_iff₀ D0]
    norm_num
    linarith
  have k2 : a / D ≤ 0.334 := by
    rw [div_le_iff₀ D0]
    norm_num
    linarith
  norm_num at k1 k2
  have k0 : 0 ≤ a / D := by linarith
  have ed : div (fin a) (fin D) = fin (rnd (a / D)) := by
    rw [div, if_neg D0.ne']
    exact round_fin (big k0 (by linarith))
  obtain ⟨r1, r2'⟩ := rnd_pos_bnd k0
  rw [ed]
  generalize a / D = A at *
  generalize rnd A = B at *
  norm_num at r1 r2'
  have B1 : 0.3256 * s ≤ B * s := mul_le_mul_of_nonneg_right (by norm_num; linarith) s0.le
  have B2 : B * s ≤ 0.3341 * s := mul_le_mul_of_nonneg_right (by norm_num; linarith) s0.le
  norm_num at B1 B2
  have w0 : 0 ≤ B * (2 * s) := by linarith
  obtain ⟨w1, w2⟩ := rnd_pos_bnd w0
  refine ⟨_, mul_fin (big w0 (by linarith)), ?_, ?_⟩
  · norm_num at w1 ⊢
    linarith
  · norm_num at w2 ⊢
    linarith

/-! ### Examples -/

theorem round_pi : round Real.pi = fin piF := by
  have p1 := Real.pi_gt_d20
  have p2 := Real.pi_lt_d20
  have h : rnd Real.pi = piF := by
    rw [rnd_eq (m := 13176795) (k := 1)]
    · unfold piF
      norm_num
    · rw [abs_of_pos Real.pi_pos]
      norm_num at p1 ⊢
      linarith
    · rw [abs_of_pos Real.pi_pos]
      norm_num at p2 ⊢
      linarith
    · norm_num
    · norm_num at p1 p2 ⊢
      rw [abs_lt]
      constructor <;> linarith
  rw [round_fin (by rw [abs_of_pos Real.pi_pos]; norm_num at p2 ⊢; linarith), h]

theorem rounded_half : Libm.rounded.atan2 (fin 0) (fin (-1)) = fin piF := by
  change round (Complex.arg ⟨-1, 0⟩) = _
  have : (⟨-1, 0⟩ : ℂ) = -1 := Complex.ext rfl (by simp)
  rw [this, Complex.arg_neg_one, round_pi]

/-- The half turn about the third axis. -/
example : ∃ a b, transformLogarithm Libm.rounded.atan2 pow2Rounded
      (Transform.ofMat !![-1, 0, 0; 0, -1, 0; 0, 0, 1] ![1, 2, 3]) = ⟨fin a, fin b, fin 3, fin 0, fin 0, fin piF⟩ ∧
    |a - Real.pi| ≤ 2 ^ (-16 : ℤ) ∧ |b + Real.pi / 2| ≤ 2 ^ (-16 : ℤ) := by
  obtain ⟨-, -, a, b, h1, h2, h3⟩ := C104_half_turn rounded_half pow2Rounded 1 2 3 3 (by norm_num) (by norm_num) (by norm_num) (by norm_num)
  refine ⟨a, b, h1, ?_, ?_⟩
  · rw [div_mul_cancel₀ _ two_ne_zero] at h2
    exact h2.trans (by norm_num)
  · rw [mul_one] at h3
    exact h3.trans (by norm_num)

/-- The half turn about the bisector of the first two axes. -/
example (v : Velocity6D) : transformLogarithmInPlace Libm.rounded.atan2 pow2Rounded
      (Transform.ofMat !![0, 1, 0; 1, 0, 0; 0, 0, -1] ![1, 2, 3]) v = ⟨fin 1, fin 2, fin 3, v.wxd, v.wyd, v.wzd⟩ := by
  refine C104_half_turn_lost _ ?_ 0 0 (-1) 1 0 0 1 2 3 (-1) (by norm_num) (by norm_num) (by norm_num) Rep.one rep_two
    ⟨3, 0, by norm_num, by norm_num, by norm_num, by norm_num⟩ ?_ (by norm_num) rounded_half v
  · change F64.round (0 ^ 2) = _
    rw [show (0 : ℝ) ^ 2 = 0 by norm_num]
    exact (F64.round_fin (by norm_num)).trans (by rw [F64.rnd_zero])
  · rw [add_eval (add_zero 0) Rep.zero, add_eval (zero_add (-1)) Rep.one.neg, sub_eval (c := -2) (by norm_num) rep_two.neg,
      mul_eval (c := -1) (by norm_num) Rep.one.neg]

/-- A rotation by 4149/4194304, about 0.000989. -/
example : ∃ w, (transformLogarithm Libm.rounded.atan2 pow2Rounded (Transform.ofMat
      !![1, -(4149 / 4194304), 0; 4149 / 4194304, 1, 0; 0, 0, 1] ![0, 0, 0])).wzd = fin w ∧ w ≤ 0.67 * (4149 / 4194304) := by
  obtain ⟨w, h1, -, h2⟩ := C104_small atan2Rounded_accurate pow2Rounded (4149 / 4194304) 0 0 0
    ⟨4149, -22, by norm_num, by norm_num, by norm_num, by norm_num⟩ (by norm_num) (by norm_num)
  exact ⟨w, h1, h2⟩

end AlMath.F32
