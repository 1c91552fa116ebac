import Verif.Props.C78

/-!
C79: compositions of many transforms in single precision.
-/

namespace AlMath.F32

open AlMath.Spec Matrix

/-- One row of the product of a transform with a position: what is computed, with the error. -/
theorem affine_fin {a b c x y z t M : ℝ} (hM : M ≤ 2 ^ 123) (h : |a| * |x| + |b| * |y| + |c| * |z| ≤ M) (ht : |t| ≤ M)
    (hg : Grid t) :
    ∃ d, add (dot (fin a) (fin b) (fin c) (fin x) (fin y) (fin z)) (fin t) = fin d ∧
      |d - (a * x + b * y + c * z + t)| ≤
        (2 ^ (-22 : ℤ) + 2 ^ (-23 : ℤ)) * (|a| * |x| + |b| * |y| + |c| * |z|) + 2 ^ (-24 : ℤ) * |t| + 2 ^ (-147 : ℤ) := by
  have h125 : (2 : ℝ) ^ 123 ≤ 2 ^ 125 := by norm_num
  obtain ⟨d, hd, hr, he⟩ := dot_fin (h.trans (hM.trans h125))
  have s := rnd_add hr.grid hg
  have b0 := abs_add_le d t
  have b1 := le_of_err he
  have b2 : |a * x + b * y + c * z| ≤ |a| * |x| + |b| * |y| + |c| * |z| := by
    rw [← abs_mul, ← abs_mul, ← abs_mul]
    exact (abs_add_le _ _).trans (add_le_add (abs_add_le _ _) le_rfl)
  have n0 : 0 ≤ |a| * |x| + |b| * |y| + |c| * |z| := by positivity
  have h147 : (2 : ℝ) ^ (-147 : ℤ) = 2 * 2 ^ (-148 : ℤ) := by norm_num
  have h148 : (2 : ℝ) ^ (-148 : ℤ) ≤ 1 := by norm_num
  have p148 : (0 : ℝ) < 2 ^ (-148 : ℤ) := two_zpow_pos _
  have big : (2 : ℝ) ^ 123 * 3 + 1 ≤ 2 ^ 127 := by norm_num
  rw [h147, hd]
  refine ⟨rnd (d + t), add_fin ?_, ?_⟩
  · generalize |a| * |x| + |b| * |y| + |c| * |z| = S at *
    generalize a * x + b * y + c * z = S' at *
    generalize (2 : ℝ) ^ (-148 : ℤ) = w at *
    have h22 : (2 : ℝ) ^ (-22 : ℤ) * S ≤ 1 / 4 * S := by norm_num; linarith
    generalize (2 : ℝ) ^ (-22 : ℤ) * S = S'' at *
    generalize (2 : ℝ) ^ 123 = m at *
    generalize (2 : ℝ) ^ 127 = m' at *
    linarith
  · have e : rnd (d + t) - (a * x + b * y + c * z + t) = (rnd (d + t) - (d + t)) + (d - (a * x + b * y + c * z)) := by ring
    rw [e]
    have q := abs_add_le (rnd (d + t) - (d + t)) (d - (a * x + b * y + c * z))
    generalize |a| * |x| + |b| * |y| + |c| * |z| = S at *
    generalize a * x + b * y + c * z = S' at *
    generalize (2 : ℝ) ^ (-148 : ℤ) = w at *
    norm_num at s he b1 ⊢
    linarith

/-- The image of a point by a transform of moderate size. -/
theorem affine_ofVec {A : Mat3} {v t : Vec3} (hA : fro A ≤ 11 / 4) (hv : vlen v ≤ 2 ^ 119) (ht : vlen t ≤ 2 ^ 119)
    (hg : ∀ i, Grid (t i)) :
    ∃ w : Vec3, (∀ i, add (dot (fin (A i 0)) (fin (A i 1)) (fin (A i 2)) (fin (v 0)) (fin (v 1)) (fin (v 2))) (fin (t i)) = fin (w i)) ∧
      vlen (w - (A *ᵥ v + t)) ≤ 2 ^ (-19 : ℤ) * vlen v + 2 ^ (-24 : ℤ) * vlen t + 2 ^ (-146 : ℤ) := by
  have hb : ∀ i, |A i 0| * |v 0| + |A i 1| * |v 1| + |A i 2| * |v 2| ≤ 2 ^ 123 := by
    intro i
    have key : ∀ k, |A i k| * |v k| ≤ 11 / 4 * 2 ^ 119 := fun k =>
      mul_le_mul ((abs_le_fro A i k).trans hA) ((abs_le_vlen v k).trans hv) (abs_nonneg _) (by norm_num)
    have := key 0
    have := key 1
    have := key 2
    have : (11 / 4 * 2 ^ 119 * 3 : ℝ) ≤ 2 ^ 123 := by norm_num
    linarith
  have h123 : (2 : ℝ) ^ 119 ≤ 2 ^ 123 := by norm_num
  choose w hw he using fun i => affine_fin le_rfl (hb i) (((abs_le_vlen t i).trans ht).trans h123) (hg i)
  refine ⟨w, hw, ?_⟩
  have h1 := vlen_err (w := w - (A *ᵥ v + t)) (A := A) (v := v) (t := t)
    (u := 2 ^ (-22 : ℤ) + 2 ^ (-23 : ℤ)) (u' := 2 ^ (-24 : ℤ)) (η := 2 ^ (-147 : ℤ))
    (by positivity) (by positivity) (by positivity) fun i => by
      have : (w - (A *ᵥ v + t)) i = w i - (A i 0 * v 0 + A i 1 * v 1 + A i 2 * v 2 + t i) := by
        simp [Matrix.mulVec, dotProduct, Fin.sum_univ_three]
      rw [this]
      exact he i
  refine h1.trans ?_
  have h2 : fro A * vlen v ≤ 11 / 4 * vlen v := mul_le_mul_of_nonneg_right hA (vlen_nonneg _)
  have h3 : (2 : ℝ) * 2 ^ (-147 : ℤ) = 2 ^ (-146 : ℤ) := by norm_num
  have h4 := vlen_nonneg v
  rw [h3]
  generalize (2 : ℝ) ^ (-146 : ℤ) = w at *
  generalize fro A * vlen v = x at *
  norm_num
  linarith

/-- The image of a point known up to `g` by a transform known up to `e` and `f`. -/
theorem affine_near {A P : Mat3} {v x t s : Vec3} {e f g : ℝ} (hP : Pᵀ * P = 1) (hA : fro (A - P) ≤ e) (he : e ≤ 1)
    (hv : vlen (v - x) ≤ g) (ht : vlen (t - s) ≤ f) (hv' : vlen v ≤ 2 ^ 119) (ht' : vlen t ≤ 2 ^ 119)
    (hg : ∀ i, Grid (t i)) :
    ∃ w : Vec3, (∀ i, add (dot (fin (A i 0)) (fin (A i 1)) (fin (A i 2)) (fin (v 0)) (fin (v 1)) (fin (v 2))) (fin (t i)) = fin (w i)) ∧
      vlen (w - (P *ᵥ x + s)) ≤ e * vlen v + g + f + (2 ^ (-19 : ℤ) * vlen v + 2 ^ (-24 : ℤ) * vlen t + 2 ^ (-146 : ℤ)) := by
  have hA3 : fro A ≤ 11 / 4 := by
    have := fro_add (A - P) P
    rw [sub_add_cancel] at this
    linarith [fro_rot_le hP]
  obtain ⟨w, hw, hE⟩ := affine_ofVec hA3 hv' ht' hg
  refine ⟨w, hw, ?_⟩
  have h1 : w - (P *ᵥ x + s) = (w - (A *ᵥ v + t)) + (((A - P) *ᵥ v + P *ᵥ (v - x)) + (t - s)) := by
    rw [Matrix.sub_mulVec, Matrix.mulVec_sub]
    abel
  rw [h1]
  have h2 := vlen_add (w - (A *ᵥ v + t)) (((A - P) *ᵥ v + P *ᵥ (v - x)) + (t - s))
  have h3 := vlen_add ((A - P) *ᵥ v + P *ᵥ (v - x)) (t - s)
  have h4 := vlen_add ((A - P) *ᵥ v) (P *ᵥ (v - x))
  rw [vlen_rot hP] at h4
  have h5 := vlen_mulVec (A - P) v
  have h6 : fro (A - P) * vlen v ≤ e * vlen v := mul_le_mul_of_nonneg_right hA (vlen_nonneg _)
  linarith

/-- A finite result of an addition is a value of the format. -/
theorem add_grid {a b : F32} {x : ℝ} (h : add a b = fin x) : Grid x := by
  have : ∃ y, round y = fin x := by
    cases a <;> cases b <;> simp [add] at h
    exact ⟨_, h⟩
  obtain ⟨y, hy⟩ := this
  rw [round] at hy
  split_ifs at hy
  injection hy with hy
  rw [← hy]
  exact rnd_grid y

theorem product_compose_fst {α : Type} (M : α → Mat3 × Vec3) (t : Product α) :
    (t.eval M compose).1 = t.eval (fun a => (M a).1) (· * ·) := by
  induction t with
  | factor a => rfl
  | times l r ihl ihr => simp only [Product.eval, compose, ihl, ihr]

theorem Product.All.imp {α : Type} {t : Product α} {p q : α → Prop} (hpq : ∀ a, p a → q a) (ht : t.All p) : t.All q := by
  induction t with
  | factor a => exact hpq a ht
  | times l r ihl ihr => exact ⟨ihl ht.1, ihr ht.2⟩

theorem compose_len {α : Type} (M : α → Mat3 × Vec3) (L : ℝ) (t : Product α)
    (h : t.All fun a => (M a).1ᵀ * (M a).1 = 1 ∧ vlen (M a).2 ≤ L) : vlen (t.eval M compose).2 ≤ t.size * L := by
  induction t with
  | factor a =>
    simp only [Product.eval, Product.size, Nat.cast_one, one_mul]
    exact h.2
  | times l r ihl ihr =>
    have hrot := product_rot (Product.All.imp (fun _ h => h.1) h.1)
    have := vlen_add ((l.eval M compose).1 *ᵥ (r.eval M compose).2) (l.eval M compose).2
    rw [product_compose_fst, vlen_rot hrot] at this
    simp only [Product.eval, Product.size, compose, Nat.cast_add]
    rw [product_compose_fst]
    have h1 := ihl h.1
    have h2 := ihr h.2
    linarith

/-- A composition of `N` transforms, bracketed in any way. The rotations are known up to `κ`, the
translations have length at most `L` and are known up to `κ L`. The computed transform is made of finite numbers, its
rotation and its translation are near those of the exact composition; the error of the translation is relative to
`N L`, the largest possible length of the exact one. -/
theorem C79_product {α : Type} (T : α → Transform) (M : α → Mat3 × Vec3) (κ L : ℝ) (hκ : 2 ^ (-19 : ℤ) ≤ κ)
    (hL : 2 ^ (-100 : ℤ) ≤ L) (hL' : L ≤ 2 ^ 98) (t : Product α)
    (h : t.All fun a => ((M a).1ᵀ * (M a).1 = 1 ∧ vlen (M a).2 ≤ L) ∧ ∃ A v, T a = Transform.ofMat A v ∧
      fro (A - (M a).1) ≤ κ ∧ vlen (v - (M a).2) ≤ κ * L ∧ ∀ i, Rep (v i))
    (hN : (1 + κ) ^ (3 * t.size - 2) ≤ 2) :
    ∃ A v, t.eval T Transform.mul = Transform.ofMat A v ∧
      fro (A - (t.eval M compose).1) ≤ (1 + κ) ^ (2 * t.size - 1) - 1 ∧
      vlen (v - (t.eval M compose).2) ≤ t.size * L * ((1 + κ) ^ (3 * t.size - 2) - 1) ∧ ∀ i, Grid (v i) := by
  have hκ0 : 0 < κ := lt_of_lt_of_le (two_zpow_pos _) hκ
  have hL0 : 0 < L := lt_of_lt_of_le (two_zpow_pos _) hL
  induction t with
  | factor a =>
    obtain ⟨-, A, v, h1, h2, h3, h4⟩ := h
    refine ⟨A, v, h1, ?_, ?_, fun i => (h4 i).grid⟩
    · simp only [Product.size, Product.eval]
      norm_num
      exact h2
    · simp only [Product.size, Product.eval]
      norm_num
      linarith
  | times l r ihl ihr =>
    have sl := l.size_pos
    have sr := r.size_pos
    have one : ∀ n : ℕ, 1 ≤ (1 + κ) ^ n := fun n => one_le_pow₀ (by linarith)
    have mono : ∀ {m n : ℕ}, m ≤ n → (1 + κ) ^ m ≤ (1 + κ) ^ n := fun h => pow_le_pow_right₀ (by linarith) h
    have hl2 : (1 + κ) ^ (3 * l.size - 2) ≤ 2 := (mono (by simp only [Product.size]; omega)).trans hN
    have hr2 : (1 + κ) ^ (3 * r.size - 2) ≤ 2 := (mono (by simp only [Product.size]; omega)).trans hN
    obtain ⟨A, v, hA, eA, ev, gv⟩ := ihl h.1 hl2
    obtain ⟨B, w, hB, eB, ew, gw⟩ := ihr h.2 hr2
    have hsz : ∀ {n : ℕ}, (1 + κ) ^ (3 * n - 2) ≤ 2 → (n : ℝ) ≤ 2 ^ 19 := by
      intro n hn
      have h1 : 1 + ((3 * n - 2 : ℕ) : ℝ) * κ ≤ (1 + κ) ^ (3 * n - 2) := one_add_mul_le_pow (by linarith) _
      have h2 : ((3 * n - 2 : ℕ) : ℝ) * κ ≤ 1 := by linarith
      have h3 : ((3 * n - 2 : ℕ) : ℝ) * 2 ^ (-19 : ℤ) ≤ 1 := (mul_le_mul_of_nonneg_left hκ (by positivity)).trans h2
      have h4 : ((3 * n - 2 : ℕ) : ℝ) ≤ 2 ^ 19 := by
        generalize ((3 * n - 2 : ℕ) : ℝ) = k at h3 ⊢
        norm_num at h3 ⊢
        linarith
      have h5 : 3 * n - 2 ≤ 2 ^ 19 := by exact_mod_cast h4
      have h6 : n ≤ 2 ^ 19 := by omega
      exact_mod_cast h6
    have len : ∀ {s : Product α} {v : Vec3}, (1 + κ) ^ (3 * s.size - 2) ≤ 2 →
        (s.All fun a => (M a).1ᵀ * (M a).1 = 1 ∧ vlen (M a).2 ≤ L) →
        vlen (v - (s.eval M compose).2) ≤ s.size * L * ((1 + κ) ^ (3 * s.size - 2) - 1) →
        vlen v ≤ s.size * L * (1 + κ) ^ (3 * s.size - 2) ∧ vlen v ≤ 2 ^ 119 := by
      intro s v h1 h2 h3
      have h4 := vlen_add (v - (s.eval M compose).2) (s.eval M compose).2
      rw [sub_add_cancel] at h4
      have h5 := compose_len M L s h2
      have h6 := hsz h1
      have h7 : vlen v ≤ s.size * L * (1 + κ) ^ (3 * s.size - 2) := by linarith
      refine ⟨h7, h7.trans ?_⟩
      calc (s.size : ℝ) * L * (1 + κ) ^ (3 * s.size - 2) ≤ 2 ^ 19 * 2 ^ 98 * 2 := by gcongr
        _ ≤ 2 ^ 119 := by norm_num
    have al := Product.All.imp (fun _ h => h.1) h.1
    have ar := Product.All.imp (fun _ h => h.1) h.2
    have rl := product_rot (Product.All.imp (fun _ h => h.1) al)
    have rr := product_rot (Product.All.imp (fun _ h => h.1) ar)
    rw [← product_compose_fst] at rl rr
    have hp2 : (1 + κ) ^ (2 * l.size - 1) ≤ 2 := (mono (by simp only [Product.size]; omega)).trans hN
    have hq2 : (1 + κ) ^ (2 * r.size - 1) ≤ 2 := (mono (by simp only [Product.size]; omega)).trans hN
    obtain ⟨C, hC, eC⟩ := mul_near rl rr eA eB (by linarith) (by linarith)
    obtain ⟨v1, v2⟩ := len hl2 al ev
    obtain ⟨w1, w2⟩ := len hr2 ar ew
    obtain ⟨z, hz, ez⟩ := affine_near rl eA (by linarith) ew ev w2 v2 gv
    refine ⟨C, z, ?_, ?_, ?_, fun i => add_grid (hz i)⟩
    · simp only [Product.eval]
      rw [hA, hB, Transform.mul, Transform.ofMat, Transform.ofMat, Transform.ofMat]
      dsimp only
      rw [hC, ← hz 0, ← hz 1, ← hz 2]
      rfl
    · simp only [Product.eval, compose]
      refine eC.trans ?_
      have e1 : 2 * (Product.times l r).size - 1 = (2 * l.size - 1) + (2 * r.size - 1) + 1 := by
        simp only [Product.size]
        omega
      rw [e1, pow_add, pow_add, pow_one]
      have ol := one (2 * l.size - 1)
      have or' := one (2 * r.size - 1)
      generalize (1 + κ) ^ (2 * l.size - 1) = x at *
      generalize (1 + κ) ^ (2 * r.size - 1) = y at *
      have : 1 ≤ x * y := by nlinarith
      have : 2 ^ (-19 : ℤ) ≤ x * y * κ := hκ.trans (le_mul_of_one_le_left hκ0.le this)
      linarith
    · simp only [Product.eval, compose]
      refine ez.trans ?_
      have hZ1 : (1 + κ) ^ (2 * l.size - 1) * (1 + κ) ^ (3 * r.size - 2) * (1 + κ) ≤
          (1 + κ) ^ (3 * (Product.times l r).size - 2) := by
        rw [← pow_add, ← pow_succ]
        exact mono (by simp only [Product.size]; omega)
      have hZ2 : (1 + κ) ^ (3 * l.size - 2) * (1 + κ) ^ 3 ≤ (1 + κ) ^ (3 * (Product.times l r).size - 2) := by
        rw [← pow_add]
        exact mono (by simp only [Product.size]; omega)
      have o1 := one (2 * l.size - 1)
      have o2 := one (3 * r.size - 2)
      have o3 := one (3 * l.size - 2)
      have hsum : ((Product.times l r).size : ℝ) * L = l.size * L + r.size * L := by
        simp only [Product.size, Nat.cast_add]
        ring
      rw [hsum]
      have hY : L ≤ l.size * L := le_mul_of_one_le_left hL0.le (by exact_mod_cast sl)
      have hX : L ≤ r.size * L := le_mul_of_one_le_left hL0.le (by exact_mod_cast sr)
      have hη : (2 : ℝ) ^ (-146 : ℤ) ≤ κ * L := by
        calc (2 : ℝ) ^ (-146 : ℤ) ≤ 2 ^ (-19 : ℤ) * 2 ^ (-100 : ℤ) := by
              rw [← zpow_add₀ (by norm_num)]
              exact zpow_le_zpow_right₀ (by norm_num) (by norm_num)
          _ ≤ κ * L := by gcongr
      have h24 : (2 : ℝ) ^ (-24 : ℤ) ≤ κ := (zpow_le_zpow_right₀ (by norm_num) (by norm_num)).trans hκ
      have hV := vlen_nonneg v
      have hW := vlen_nonneg w
      clear hN hl2 hr2 ihl ihr hsz len mono one ez ev ew v2 w2 eA eB eC hp2 hq2 hsum
      generalize (1 + κ) ^ (2 * l.size - 1) = p at *
      generalize (1 + κ) ^ (3 * r.size - 2) = q at *
      generalize (1 + κ) ^ (3 * l.size - 2) = y at *
      generalize (1 + κ) ^ (3 * (Product.times l r).size - 2) = Z at *
      generalize (l.size : ℝ) * L = Y at *
      generalize (r.size : ℝ) * L = X at *
      generalize (2 : ℝ) ^ (-146 : ℤ) = η at *
      generalize (2 : ℝ) ^ (-24 : ℤ) = μ at *
      generalize (2 : ℝ) ^ (-19 : ℤ) = ν at *
      have hX0 : 0 < X := by linarith
      have hY0 : 0 < Y := by linarith
      have b1 : (p - 1) * vlen w + ν * vlen w ≤ (p - 1 + κ) * (X * q) := by
        rw [← add_mul]
        exact mul_le_mul (by linarith) w1 hW (by linarith)
      have b2 : μ * vlen v ≤ κ * (Y * y) := mul_le_mul h24 v1 hV hκ0.le
      have b3 : X * (p * q * (1 + κ)) ≤ X * Z := mul_le_mul_of_nonneg_left hZ1 hX0.le
      have b4 : Y * (y * (1 + κ) ^ 3) ≤ Y * Z := mul_le_mul_of_nonneg_left hZ2 hY0.le
      have b5 : κ * (X * q) ≤ κ * (X * q) * p := le_mul_of_one_le_right (by positivity) o1
      have b6 : κ * Y ≤ κ * (Y * y) := mul_le_mul_of_nonneg_left (le_mul_of_one_le_right hY0.le o3) hκ0.le
      have b7 : κ * L ≤ κ * Y := mul_le_mul_of_nonneg_left hY hκ0.le
      have b8 : Y * (y * (1 + 2 * κ)) ≤ Y * (y * (1 + κ) ^ 3) := by
        have : 1 + 2 * κ ≤ (1 + κ) ^ 3 := by nlinarith [pow_pos hκ0 2, pow_pos hκ0 3]
        gcongr
      linarith

/-- The same with bounds that are linear in the number of factors, component by component. -/
theorem C79_linear {α : Type} (T : α → Transform) (M : α → Mat3 × Vec3) (κ L : ℝ) (hκ : 2 ^ (-19 : ℤ) ≤ κ)
    (hL : 2 ^ (-100 : ℤ) ≤ L) (hL' : L ≤ 2 ^ 98) (t : Product α)
    (h : t.All fun a => ((M a).1ᵀ * (M a).1 = 1 ∧ vlen (M a).2 ≤ L) ∧ ∃ A v, T a = Transform.ofMat A v ∧
      fro (A - (M a).1) ≤ κ ∧ vlen (v - (M a).2) ≤ κ * L ∧ ∀ i, Rep (v i))
    (hN : 6 * t.size * κ ≤ 1) :
    ∃ A v, t.eval T Transform.mul = Transform.ofMat A v ∧
      (∀ i j, |A i j - (t.eval M compose).1 i j| ≤ 4 * t.size * κ) ∧
      ∀ i, |v i - (t.eval M compose).2 i| ≤ 6 * t.size * κ * (t.size * L) := by
  have hκ0 : 0 < κ := lt_of_lt_of_le (two_zpow_pos _) hκ
  have hL0 : 0 < L := lt_of_lt_of_le (two_zpow_pos _) hL
  have hs : ((2 * t.size - 1 : ℕ) : ℝ) ≤ 2 * t.size := by exact_mod_cast Nat.sub_le _ _
  have h1 : ((2 * t.size - 1 : ℕ) : ℝ) * κ ≤ 2 * t.size * κ := mul_le_mul_of_nonneg_right hs hκ0.le
  have hs' : ((3 * t.size - 2 : ℕ) : ℝ) ≤ 3 * t.size := by exact_mod_cast Nat.sub_le _ _
  have h1' : ((3 * t.size - 2 : ℕ) : ℝ) * κ ≤ 3 * t.size * κ := mul_le_mul_of_nonneg_right hs' hκ0.le
  have h0 : 0 ≤ (t.size : ℝ) * κ := by positivity
  have h2 := pow_le_linear hκ0.le (m := 2 * t.size - 1) (by linarith)
  have h3 := pow_le_linear hκ0.le (m := 3 * t.size - 2) (by linarith)
  obtain ⟨A, v, hA, eA, ev, -⟩ := C79_product T M κ L hκ hL hL' t h (by linarith)
  refine ⟨A, v, hA, fun i j => ?_, fun i => ?_⟩
  · refine (abs_le_fro (A - (t.eval M compose).1) i j).trans (eA.trans ?_)
    linarith
  · refine (abs_le_vlen (v - (t.eval M compose).2) i).trans (ev.trans ?_)
    rw [mul_comm]
    exact mul_le_mul_of_nonneg_right (by linarith) (by positivity)

/-- The image of a point by such a transform. -/
theorem C79_apply (A P : Mat3) (v s x y : Vec3) (e f g : ℝ) (hP : Pᵀ * P = 1) (hA : fro (A - P) ≤ e) (he : e ≤ 1)
    (hv : vlen (v - s) ≤ f) (hy : vlen (y - x) ≤ g) (hv' : vlen v ≤ 2 ^ 119) (hy' : vlen y ≤ 2 ^ 119)
    (hg : ∀ i, Rep (v i)) :
    ∃ w, Transform.apply (Transform.ofMat A v) (Position3D.ofVec y) = Position3D.ofVec w ∧
      vlen (w - (P *ᵥ x + s)) ≤ e * vlen y + g + f + (2 ^ (-19 : ℤ) * vlen y + 2 ^ (-24 : ℤ) * vlen v + 2 ^ (-146 : ℤ)) := by
  obtain ⟨w, hw, ew⟩ := affine_near hP hA he hy hv hy' hv' fun i => (hg i).grid
  refine ⟨w, ?_, ew⟩
  rw [Position3D.ofVec, Position3D.ofVec, ← hw 0, ← hw 1, ← hw 2]
  rfl

/-- A chain of at most 64 transforms of a robot, of at most 1 metre each, each exact up to the rounding of its
numbers: the position of the end is computed up to 0.05 metre, the orientation up to 0.001. -/
example {α : Type} (T : α → Transform) (M : α → Mat3 × Vec3) (t : Product α) (ht : t.size ≤ 64)
    (h : t.All fun a => ((M a).1ᵀ * (M a).1 = 1 ∧ vlen (M a).2 ≤ 1) ∧ ∃ A v, T a = Transform.ofMat A v ∧
      fro (A - (M a).1) ≤ 2 ^ (-19 : ℤ) ∧ vlen (v - (M a).2) ≤ 2 ^ (-19 : ℤ) * 1 ∧ ∀ i, Rep (v i)) :
    ∃ A v, t.eval T Transform.mul = Transform.ofMat A v ∧
      (∀ i j, |A i j - (t.eval M compose).1 i j| ≤ 1 / 1000) ∧
      ∀ i, |v i - (t.eval M compose).2 i| ≤ 1 / 20 := by
  have hs : (t.size : ℝ) ≤ 64 := by exact_mod_cast ht
  have h0 : (0 : ℝ) ≤ t.size := by positivity
  obtain ⟨A, v, hA, e1, e2⟩ := C79_linear T M (2 ^ (-19 : ℤ)) 1 le_rfl (by norm_num) (by norm_num) t h
    (by norm_num; linarith)
  refine ⟨A, v, hA, fun i j => (e1 i j).trans ?_, fun i => (e2 i).trans ?_⟩
  · norm_num
    linarith
  · norm_num
    nlinarith

/-- Factors as assumed. -/
example : (Product.factor ()).All fun _ => (((1 : Mat3))ᵀ * (1 : Mat3) = 1 ∧ vlen ![1, 0, 0] ≤ 1) ∧
    ∃ A v, Transform.ofMat 1 ![1, 0, 0] = Transform.ofMat A v ∧ fro (A - 1) ≤ 2 ^ (-19 : ℤ) ∧
      vlen (v - ![1, 0, 0]) ≤ 2 ^ (-19 : ℤ) * 1 ∧ ∀ i, Rep (v i) := by
  refine ⟨⟨by simp, ?_⟩, 1, ![1, 0, 0], rfl, ?_, ?_, ?_⟩
  · simp [vlen, Fin.sum_univ_three]
  · rw [sub_self, fro]
    simp
  · rw [sub_self, vlen]
    simp
  · intro i
    fin_cases i
    · exact Rep.one
    · exact Rep.zero
    · exact Rep.zero

end AlMath.F32
