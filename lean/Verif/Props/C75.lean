import Verif.Model.FloatTypes
import Verif.Lemmas.Float32
import Verif.Spec.FloatMatrix
import Mathlib.Data.EReal.Basic

/-!
C75: NaN, infinities and comparisons.
-/

namespace AlMath.F32

/-- The value as an extended real; NaN has none. Not in /repo: specification. -/
noncomputable def toEReal : F32 → Option EReal
  | nan => none
  | pinf => some ⊤
  | ninf => some ⊥
  | fin x => some x

theorem lt_iff (a b : F32) : lt a b ↔ ∃ x y, toEReal a = some x ∧ toEReal b = some y ∧ x < y := by
  cases a <;> cases b <;> simp [lt, toEReal, EReal.coe_lt_top, EReal.bot_lt_coe]

theorem eq_iff (a b : F32) : eq a b ↔ ∃ x, toEReal a = some x ∧ toEReal b = some x := by
  cases a <;> cases b <;> simp [eq, toEReal, eq_comm]

theorem le_iff (a b : F32) : le a b ↔ ∃ x y, toEReal a = some x ∧ toEReal b = some y ∧ x ≤ y := by
  unfold le
  rw [lt_iff, eq_iff]
  constructor
  · rintro (⟨x, y, h1, h2, h3⟩ | ⟨x, h1, h2⟩)
    exacts [⟨x, y, h1, h2, h3.le⟩, ⟨x, x, h1, h2, le_rfl⟩]
  · rintro ⟨x, y, h1, h2, h3⟩
    rcases h3.lt_or_eq with h3 | h3
    exacts [.inl ⟨x, y, h1, h2, h3⟩, .inr ⟨x, h1, h3 ▸ h2⟩]

theorem toEReal_inj {a b : F32} {x : EReal} (ha : toEReal a = some x) (hb : toEReal b = some x) : a = b := by
  cases a <;> cases b <;> simp_all [toEReal]
  all_goals (subst ha; simp_all)

theorem toEReal_some {a : F32} (h : a ≠ nan) : ∃ x, toEReal a = some x := by
  cases a <;> simp_all [toEReal]

theorem nan_add (a : F32) : add nan a = nan := by cases a <;> rfl

theorem add_nan (a : F32) : add a nan = nan := by cases a <;> rfl

theorem nan_sub (a : F32) : sub nan a = nan := nan_add _

theorem sub_nan (a : F32) : sub a nan = nan := add_nan _

theorem nan_mul (a : F32) : mul nan a = nan := by cases a <;> rfl

theorem mul_nan (a : F32) : mul a nan = nan := by cases a <;> rfl

theorem not_lt_nan (a : F32) : ¬ lt a nan := by cases a <;> simp [lt]

theorem nan_not_lt (a : F32) : ¬ lt nan a := by simp [lt]

theorem nan_not_le (a : F32) : ¬ le nan a := by simp [le, lt, eq]

theorem not_le_nan (a : F32) : ¬ le a nan := by cases a <;> simp [le, lt, eq]

/-! ### Clipping -/

/-- A value that is not NaN is clipped: the result is between the bounds, it is the value if that already
was, and the flag tells whether it was not. -/
theorem C75_clip (mn mx d : F32) (hb : le mn mx) (hd : d ≠ nan) :
    le mn (clipData mn mx d).1 ∧ le (clipData mn mx d).1 mx ∧
    (le mn d ∧ le d mx → (clipData mn mx d).1 = d) ∧
    ((clipData mn mx d).2 = true ↔ ¬ (le mn d ∧ le d mx)) ∧
    (lt d mn → (clipData mn mx d).1 = mn) ∧ (lt mx d → (clipData mn mx d).1 = mx) := by
  obtain ⟨l, u, hl, hu, hlu⟩ := (le_iff _ _).1 hb
  obtain ⟨x, hx⟩ := toEReal_some hd
  have le' : ∀ {a b : F32} {x y : EReal}, toEReal a = some x → toEReal b = some y → (le a b ↔ x ≤ y) := by
    intro a b x y ha hb
    rw [le_iff]
    constructor
    · rintro ⟨x', y', h1, h2, h3⟩
      rw [ha, Option.some.injEq] at h1
      rw [hb, Option.some.injEq] at h2
      rwa [h1, h2]
    · exact fun h => ⟨x, y, ha, hb, h⟩
  have lt' : ∀ {a b : F32} {x y : EReal}, toEReal a = some x → toEReal b = some y → (lt a b ↔ x < y) := by
    intro a b x y ha hb
    rw [lt_iff]
    constructor
    · rintro ⟨x', y', h1, h2, h3⟩
      rw [ha, Option.some.injEq] at h1
      rw [hb, Option.some.injEq] at h2
      rwa [h1, h2]
    · exact fun h => ⟨x, y, ha, hb, h⟩
  have eq' : ∀ {a b : F32} {x y : EReal}, toEReal a = some x → toEReal b = some y → (eq a b ↔ x = y) := by
    intro a b x y ha hb
    rw [eq_iff]
    constructor
    · rintro ⟨x', h1, h2⟩
      rw [ha, Option.some.injEq] at h1
      rw [hb, Option.some.injEq] at h2
      rw [h1, h2]
    · rintro rfl
      exact ⟨x, ha, hb⟩
  unfold clipData
  simp only [decide_eq_true_eq]
  rw [lt' hx hl, lt' hu hx, le' hl hx, le' hx hu]
  by_cases h1 : x < l
  · have h3 : ¬ l ≤ x := not_le.2 h1
    simp only [h1, if_true, h3, false_and, not_false_eq_true, iff_true, true_implies, false_implies]
    refine ⟨(le' hl hl).2 le_rfl, hb, trivial, ?_, trivial, fun h => ?_⟩
    · rw [eq' hx hl]
      exact ne_of_lt h1
    · exact absurd (h1.trans_le (hlu.trans h.le)) (lt_irrefl _)
  · by_cases h2 : u < x
    · have h3 : ¬ x ≤ u := not_le.2 h2
      simp only [h1, if_false, h2, if_true, h3, and_false, not_false_eq_true, iff_true, true_implies,
        false_implies]
      refine ⟨hb, (le' hu hu).2 le_rfl, trivial, ?_, trivial, trivial⟩
      rw [eq' hx hu]
      exact ne_of_gt h2
    · simp only [h1, if_false, h2]
      rw [le' hl hx, le' hx hu]
      refine ⟨not_lt.1 h1, not_lt.1 h2, fun _ => trivial, ?_, fun h => h.elim, fun h => h.elim⟩
      rw [eq' hx hx]
      simp [not_lt.1 h1, not_lt.1 h2]

/-- NaN is not clipped, although the flag says so. -/
theorem C75_clip_nan (mn mx : F32) : clipData mn mx nan = (nan, true) := by
  simp [clipData, nan_not_lt, not_lt_nan, eq]

/-! ### Comparisons -/

/-- Values are equal to themselves, NaN excepted. -/
theorem C75_eq (p : Position3D) : Position3D.eq p p ↔ p.x ≠ nan ∧ p.y ≠ nan ∧ p.z ≠ nan := by
  have : ∀ a : F32, eq a a ↔ a ≠ nan := by
    intro a
    cases a <;> simp [eq]
  simp [Position3D.eq, this]

/-- Nothing is near NaN or within NaN, infinities are not near themselves, and they are near finite
numbers exactly within infinity. -/
theorem C75_near_special (a b eps : F32) :
    ¬ near nan b eps ∧ ¬ near a nan eps ∧ ¬ near a b nan ∧ ¬ near pinf pinf eps ∧ ¬ near ninf ninf eps ∧
    ∀ x, (near pinf (fin x) eps ↔ eps = pinf) ∧ (near (fin x) ninf eps ↔ eps = pinf) := by
  refine ⟨?_, ?_, not_le_nan _, ?_, ?_, fun x => ⟨?_, ?_⟩⟩
  · rw [near, nan_sub]
    exact nan_not_le _
  · rw [near, sub_nan]
    exact nan_not_le _
  · exact nan_not_le _
  · exact nan_not_le _
  · cases eps <;> simp [near, sub, neg, add, abs, le, lt, eq]
  · cases eps <;> simp [near, sub, neg, add, abs, le, lt, eq]

theorem near_fin {x y e : ℝ} (hx : Rep x) (hy : Rep y) :
    near (fin x) (fin y) (fin e) ↔ |x - y| < 2 ^ 128 ∧ rnd |x - y| ≤ e ∧ rnd |x - y| < 2 ^ 128 := by
  have ap : F32.abs pinf = pinf := rfl
  have an : F32.abs ninf = pinf := rfl
  have hr := abs_rnd (x - y)
  rw [near, sub, neg, add, ← sub_eq_add_neg, round]
  by_cases h1 : 2 ^ 128 ≤ rnd (x - y)
  · rw [if_pos h1, ap]
    have : ¬ rnd |x - y| < 2 ^ 128 := by
      rw [← hr]
      exact not_lt.2 (h1.trans (le_abs_self _))
    simp [le, lt, eq, this]
  · rw [if_neg h1]
    by_cases h2 : rnd (x - y) ≤ -2 ^ 128
    · rw [if_pos h2, an]
      have : ¬ rnd |x - y| < 2 ^ 128 := by
        rw [← hr]
        have := neg_abs_le (rnd (x - y))
        linarith
      simp [le, lt, eq, this]
    · rw [if_neg h2, abs, hr]
      have h3 : rnd |x - y| < 2 ^ 128 := by
        rw [← hr, abs_lt]
        constructor <;> linarith
      have h4 : |x - y| < 2 ^ 128 := by
        by_contra hc
        have hg : Grid (2 ^ 128) := ⟨1, 128, by norm_num, by norm_num, by norm_num⟩
        exact absurd (le_rnd_of_le hg (not_lt.1 hc)) (not_le.2 h3)
      simp [le, lt, eq, h3, h4, le_iff_lt_or_eq]

/-- For finite numbers, the test of nearness always accepts what is within the tolerance, and what it accepts is
within the tolerance, up to the rounding of one subtraction. -/
theorem C75_near (x y e : ℝ) (hx : Rep x) (hy : Rep y) (he : Rep e) :
    (|x - y| ≤ e → near (fin x) (fin y) (fin e)) ∧
    (near (fin x) (fin y) (fin e) → |x - y| * (1 - 2 ^ (-24 : ℤ)) ≤ e) := by
  rw [near_fin hx hy]
  constructor
  · intro h
    have h1 := rnd_le_of_le he.grid h
    have h2 := (abs_lt.1 he.lt).2
    exact ⟨by linarith, h1, by linarith⟩
  · rintro ⟨-, h, -⟩
    have h1 := rnd_add hx.grid hy.neg.grid
    rw [← sub_eq_add_neg] at h1
    have h2 : |x - y| - |rnd (x - y)| ≤ |rnd (x - y) - (x - y)| := by
      have := abs_sub_abs_le_abs_sub (x - y) (rnd (x - y))
      rwa [abs_sub_comm (x - y)] at this
    rw [abs_rnd] at h2
    linarith

/-- The test of nearness of two positions. -/
theorem C75_isNear (p q : Position3D) (eps : F32) (h : Position3D.isNear p q eps) :
    p.x ≠ nan ∧ p.y ≠ nan ∧ p.z ≠ nan ∧ q.x ≠ nan ∧ q.y ≠ nan ∧ q.z ≠ nan ∧ eps ≠ nan ∧ ¬ lt eps (fin 0) := by
  obtain ⟨h1, h2, h3⟩ := h
  have key : ∀ {a b : F32}, near a b eps → a ≠ nan ∧ b ≠ nan := by
    intro a b h
    constructor
    · rintro rfl
      exact (C75_near_special nan b eps).1 h
    · rintro rfl
      exact (C75_near_special a nan eps).2.1 h
  refine ⟨(key h1).1, (key h2).1, (key h3).1, (key h1).2, (key h2).2, (key h3).2, ?_, ?_⟩
  · rintro rfl
    exact (C75_near_special p.x q.x nan).2.2.1 h1
  · intro hc
    obtain ⟨v, e, hv, he, hve⟩ := (le_iff _ _).1 h1
    obtain ⟨e', z, he', hz, hez⟩ := (lt_iff _ _).1 hc
    rw [he, Option.some.injEq] at he'
    simp only [toEReal, Option.some.injEq] at hz
    have : 0 ≤ v := by
      generalize sub p.x q.x = d at hv
      cases d <;> simp [abs, toEReal] at hv <;> subst hv
      · exact le_top
      · exact le_top
      · exact_mod_cast abs_nonneg _
    rw [← he', ← hz] at hez
    exact absurd (this.trans hve) (not_le.2 hez)

/-- Positions and matrices of finite numbers are near when all their entries are within the tolerance, and
only then up to the rounding of one subtraction. -/
theorem C75_isNear_all (v w : Spec.Vec3) (A B : Spec.Mat3) (e : ℝ) (hv : ∀ i, Rep (v i)) (hw : ∀ i, Rep (w i))
    (hA : ∀ i j, Rep (A i j)) (hB : ∀ i j, Rep (B i j)) (he : Rep e) :
    ((∀ i, |v i - w i| ≤ e) → Position3D.isNear (Position3D.ofVec v) (Position3D.ofVec w) (fin e)) ∧
    (Position3D.isNear (Position3D.ofVec v) (Position3D.ofVec w) (fin e) →
      ∀ i, |v i - w i| * (1 - 2 ^ (-24 : ℤ)) ≤ e) ∧
    ((∀ i j, |A i j - B i j| ≤ e) → Rotation.isNear (Rotation.ofMat A) (Rotation.ofMat B) (fin e)) ∧
    (Rotation.isNear (Rotation.ofMat A) (Rotation.ofMat B) (fin e) →
      ∀ i j, |A i j - B i j| * (1 - 2 ^ (-24 : ℤ)) ≤ e) := by
  have k1 := fun i => C75_near (v i) (w i) e (hv i) (hw i) he
  have k2 := fun i j => C75_near (A i j) (B i j) e (hA i j) (hB i j) he
  refine ⟨fun h => ⟨(k1 0).1 (h 0), (k1 1).1 (h 1), (k1 2).1 (h 2)⟩, ?_,
    fun h => ⟨(k2 _ _).1 (h _ _), (k2 _ _).1 (h _ _), (k2 _ _).1 (h _ _), (k2 _ _).1 (h _ _), (k2 _ _).1 (h _ _),
      (k2 _ _).1 (h _ _), (k2 _ _).1 (h _ _), (k2 _ _).1 (h _ _), (k2 _ _).1 (h _ _)⟩, ?_⟩
  · rintro ⟨h1, h2, h3⟩ i
    fin_cases i
    exacts [(k1 0).2 h1, (k1 1).2 h2, (k1 2).2 h3]
  · rintro ⟨h1, h2, h3, h4, h5, h6, h7, h8, h9⟩ i j
    fin_cases i <;> fin_cases j
    exacts [(k2 0 0).2 h1, (k2 0 1).2 h2, (k2 0 2).2 h3, (k2 1 0).2 h4, (k2 1 1).2 h5, (k2 1 2).2 h6, (k2 2 0).2 h7,
      (k2 2 1).2 h8, (k2 2 2).2 h9]

/-! ### Checks that NaN passes -/

/-- A matrix of NaN is a rotation and a transform for any tolerance, and everything is for a tolerance
which is NaN. -/
theorem C75_isRotation_nan (eps : F32) (r : Rotation) (a b c : F32) :
    Rotation.isRotation ⟨nan, nan, nan, nan, nan, nan, nan, nan, nan⟩ eps = true ∧
    Transform.isTransform ⟨⟨nan, nan, nan, nan, nan, nan, nan, nan, nan⟩, a, b, c⟩ eps = true ∧
    Rotation.isRotation r nan = true := by
  have h1 : Rotation.isRotation ⟨nan, nan, nan, nan, nan, nan, nan, nan, nan⟩ eps = true := by
    have : F32.abs nan = nan := rfl
    simp [Rotation.isRotation, Rotation.determinant, dot, nan_mul, nan_add, nan_sub, this, not_lt_nan]
  exact ⟨h1, h1, by simp [Rotation.isRotation, nan_not_lt]⟩

/-- One NaN is enough. -/
theorem C75_isRotation_one_nan (e : ℝ) (he : 0 ≤ e) :
    Rotation.isRotation ⟨nan, fin 0, fin 0, fin 0, fin 1, fin 0, fin 0, fin 0, fin 1⟩ (fin e) = true := by
  have hn : F32.abs nan = nan := rfl
  have r0 : round 0 = fin 0 := round_rep Rep.zero
  have r1 : round 1 = fin 1 := round_rep Rep.one
  have e1 : sub (fin 1) (fin 1) = fin 0 := by simp [sub, neg, add, r0]
  have e2 : dot (fin 0) (fin 0) (fin 1) (fin 0) (fin 1) (fin 0) = fin 0 := by
    simp [dot, F32.mul, add, r0]
  have e3 : dot (fin 0) (fin 1) (fin 0) (fin 0) (fin 1) (fin 0) = fin 1 := by
    simp [dot, F32.mul, add, r0, r1]
  have e4 : dot (fin 0) (fin 0) (fin 1) (fin 0) (fin 0) (fin 1) = fin 1 := by
    simp [dot, F32.mul, add, r0, r1]
  have e5 : F32.abs (fin 0) = fin 0 := by simp [F32.abs]
  have e6 : ¬ lt (fin e) (fin 0) := not_lt.2 he
  have d1 : dot (fin 0) (fin 1) (fin 0) nan (fin 0) (fin 0) = nan := by
    simp [dot, mul_nan, nan_add]
  have d2 : dot (fin 0) (fin 0) (fin 1) nan (fin 0) (fin 0) = nan := by
    simp [dot, mul_nan, nan_add]
  have d3 : dot nan (fin 0) (fin 0) nan (fin 0) (fin 0) = nan := by
    simp [dot, mul_nan, nan_add]
  have d4 : Rotation.determinant ⟨nan, fin 0, fin 0, fin 0, fin 1, fin 0, fin 0, fin 0, fin 1⟩ = nan := by
    simp [Rotation.determinant, nan_mul, nan_add, nan_sub]
  simp [Rotation.isRotation, d1, d2, d3, d4, e1, e2, e3, e4, e5, e6, hn, not_lt_nan, nan_sub]

theorem weightedMeanLoop_nan {cos sin : F32 → F32} {as ws : List F32} (hl : as.length = ws.length)
    (hw : ∀ w ∈ ws, ¬ le w (fin 0)) {s : F32 × F32} (h : s.1 = nan ∧ s.2 = nan ∨ nan ∈ ws) :
    weightedMeanLoop cos sin as ws s = .ok (nan, nan) := by
  induction as generalizing ws s with
  | nil =>
    have : ws = [] := List.length_eq_zero_iff.1 hl.symm
    subst this
    simp only [List.not_mem_nil, or_false] at h
    obtain ⟨x, y⟩ := s
    obtain ⟨rfl, rfl⟩ := h
    rfl
  | cons a as ih =>
    cases ws with
    | nil => simp at hl
    | cons w ws =>
      rw [weightedMeanLoop, if_neg (hw w (by simp))]
      refine ih (by simpa using hl) (fun v hv => hw v (by simp [hv])) ?_
      rcases h with ⟨h1, h2⟩ | h
      · simp [h1, h2, nan_add]
      · rcases List.mem_cons.1 h with rfl | h
        · simp [mul_nan, add_nan]
        · exact .inr h

/-- Weights that are not strictly positive are refused, except NaN: then the mean is NaN. -/
theorem C75_mean_nan (cos sin : F32 → F32) (atan2 : F32 → F32 → F32) (small : ℝ)
    (hatan : atan2 nan nan = nan) (angles weights : List F32) (hl : angles.length = weights.length)
    (hw : ∀ w ∈ weights, ¬ le w (fin 0)) (hn : nan ∈ weights) :
    weightedMeanAngle cos sin atan2 small angles weights = .ok nan := by
  rw [weightedMeanAngle, if_neg (not_not.2 hl), weightedMeanLoop_nan hl hw (.inr hn)]
  have : norm2 nan nan = nan := by simp [norm2, nan_mul, nan_add, sqrt]
  simp only [Res.bind_ok, this, nan_not_lt, if_false, hatan]
  simp [modulo2PI, fmod, not_lt_nan, nan_not_lt]

/-! ### Examples -/

example : clipData (fin (-1)) (fin 1) pinf = (fin 1, true) := by
  have h := C75_clip (fin (-1)) (fin 1) pinf (by simp [le, lt]) (by simp)
  refine Prod.ext (h.2.2.2.2.2 (by simp [lt])) (h.2.2.2.1.2 ?_)
  simp [le, lt, eq]

/-- A difference slightly above the tolerance is accepted, because it is rounded to the tolerance. -/
example : near (fin 1) (fin (-2 ^ (-25 : ℤ))) (fin 1) ∧ ¬ |(1 : ℝ) - -2 ^ (-25 : ℤ)| ≤ 1 := by
  have hy : Rep (-2 ^ (-25 : ℤ)) := (Rep.two_zpow (by norm_num) (by norm_num)).neg
  have hr : rnd |(1 : ℝ) - -2 ^ (-25 : ℤ)| = 1 := by
    have h1 : |(1 : ℝ) - -2 ^ (-25 : ℤ)| = 1 + 2 ^ (-25 : ℤ) := by
      rw [sub_neg_eq_add, abs_of_pos (by positivity)]
    have hlog : Int.log 2 |(1 : ℝ) + 2 ^ (-25 : ℤ)| = 0 := by
      rw [abs_of_pos (by positivity), Int.log_of_one_le_right _ (by norm_num)]
      have : ⌊(1 : ℝ) + 2 ^ (-25 : ℤ)⌋₊ = 1 := by
        rw [Nat.floor_eq_iff (by positivity)]
        norm_num
      rw [this]
      rfl
    have hb : lastBit (1 + 2 ^ (-25 : ℤ)) = -23 := by
      rw [lastBit, hlog]
      norm_num
    have hn : nearestInt (((1 : ℝ) + 2 ^ (-25 : ℤ)) / 2 ^ (-23 : ℤ)) = 2 ^ 23 := by
      have e : ((1 : ℝ) + 2 ^ (-25 : ℤ)) / 2 ^ (-23 : ℤ) = ((2 ^ 23 : ℤ) : ℝ) + 1 / 4 := by norm_num
      have hf : Int.fract ((1 : ℝ) / 4) = 1 / 4 := Int.fract_eq_self.2 (by norm_num)
      have hfl : ⌊(1 : ℝ) / 4⌋ = 0 := Int.floor_eq_zero_iff.2 (by norm_num)
      rw [e, nearestInt, Int.fract_intCast_add, hf, if_pos (by norm_num), Int.floor_intCast_add, hfl]
      rfl
    rw [h1, rnd, hb, hn]
    norm_num
  constructor
  · rw [near_fin Rep.one hy, hr]
    norm_num
  · norm_num

/-- Two angles, the second weight being NaN. -/
example (cos sin : F32 → F32) (atan2 : F32 → F32 → F32) (h : atan2 nan nan = nan) (a b : F32) :
    weightedMeanAngle cos sin atan2 0.001 [a, b] [fin 1, nan] = .ok nan :=
  C75_mean_nan cos sin atan2 _ h _ _ rfl (by simp [le, lt, eq]) (by simp)

example : ¬ Position3D.isNear ⟨fin 0, fin 0, pinf⟩ ⟨fin 0, fin 0, pinf⟩ pinf := by
  intro h
  exact (C75_near_special nan nan pinf).2.2.2.1 h.2.2

/-- Two matrices that differ by the tolerance in their last entry. -/
example : Rotation.isNear (Rotation.ofMat !![0, 0, 0; 0, 0, 0; 0, 0, 1]) (Rotation.ofMat 0) (fin 1) := by
  refine (C75_isNear_all 0 0 _ 0 1 (fun _ => Rep.zero) (fun _ => Rep.zero) ?_ (fun _ _ => Rep.zero) Rep.one).2.2.1 ?_
  · intro i j
    fin_cases i <;> fin_cases j <;> simp [Rep.zero, Rep.one]
  · intro i j
    fin_cases i <;> fin_cases j <;> simp

end AlMath.F32
