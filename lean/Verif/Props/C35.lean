import Verif.Props.C34

/-!
C35: foot collision avoidance. C36: ellipse clipping of foot moves.
-/

namespace AlMath

namespace Spec

/-- The box moved by a pose: every vertex rotated by `theta` about the origin, then
translated by `(x, y)`. Not in /repo: specification. -/
noncomputable def placed (box : List Position2D) (m : Pose2D) : List Position2D :=
  box.map fun p => ⟨m.x + (Real.cos m.theta * p.x - Real.sin m.theta * p.y),
    m.y + (Real.sin m.theta * p.x + Real.cos m.theta * p.y)⟩

/-- The collision test answers true for the supporting foot and the other foot moved by
the pose. Not in /repo: specification (what the test means is the subject of C34). -/
def Collides (support swing : List Position2D) (m : Pose2D) : Prop :=
  areTwoBoxesInCollision support (placed swing m) = .ok true

end Spec

open Spec

theorem computeBox_eq (box : List Position2D) (m : Pose2D) : computeBox box m = placed box m := by
  unfold computeBox placed
  congr 1
  funext p
  ext <;> simp [Pose2D.act] <;> ring

theorem dichoStep_eq (f s : List Position2D) (d : DichoState) :
    (Collides f s { d.pose with theta := (d.min + d.max) * 0.5 } ∧ dichoStep f s d =
      .ok { d with max := (d.min + d.max) * 0.5,
                   pose := { d.pose with theta := (d.min + d.max) * 0.5 } }) ∨
    (¬ Collides f s { d.pose with theta := (d.min + d.max) * 0.5 } ∧ dichoStep f s d =
      .ok { d with best := (d.min + d.max) * 0.5, min := (d.min + d.max) * 0.5,
                   pose := { d.pose with theta := (d.min + d.max) * 0.5 } }) := by
  obtain ⟨r, hr⟩ := C34_total f (placed s { d.pose with theta := (d.min + d.max) * 0.5 })
  unfold dichoStep Collides
  dsimp only
  rw [computeBox_eq, hr, Res.bind_ok]
  cases r
  · right; exact ⟨by simp, by simp⟩
  · left; exact ⟨rfl, by simp⟩

/-- Invariant of the bisection: the interval is one of the `2^n` equal parts of
`[0, theta]`; its upper end collides; its lower end, unless it is zero, does not. -/
def Bracket (f s : List Position2D) (m : Pose2D) (n k : ℕ) (d : DichoState) : Prop :=
  k < 2 ^ n ∧ d.min = k / 2 ^ n * m.theta ∧ d.max = (k + 1) / 2 ^ n * m.theta ∧ d.best = d.min ∧
  d.pose.x = m.x ∧ d.pose.y = m.y ∧ (k ≠ 0 → ¬ Collides f s ⟨m.x, m.y, d.min⟩) ∧
  Collides f s ⟨m.x, m.y, d.max⟩

theorem bracket_step (f s : List Position2D) (m : Pose2D) (n k : ℕ) (d : DichoState)
    (h : Bracket f s m n k d) : ∃ d' k', dichoStep f s d = .ok d' ∧ Bracket f s m (n + 1) k' d' := by
  obtain ⟨h0, h1, h2, h3, h4, h5, h6, h7⟩ := h
  have hp : ∀ t, ({ d.pose with theta := t } : Pose2D) = ⟨m.x, m.y, t⟩ := by
    intro t; ext <;> simp [h4, h5]
  have hmid : (d.min + d.max) * 0.5 = (2 * k + 1) / 2 ^ (n + 1) * m.theta := by
    rw [h1, h2, pow_succ, show (0.5 : ℝ) = 1 / 2 by norm_num]
    field_simp; ring
  rcases dichoStep_eq f s d with ⟨hc, he⟩ | ⟨hc, he⟩
  · rw [hp] at hc
    refine ⟨_, 2 * k, he, by omega, ?_, ?_, h3, h4, h5, ?_, hc⟩
    · rw [h1, pow_succ]; push_cast; field_simp
    · rw [hmid]; push_cast; ring
    · intro hk; exact h6 (by omega)
  · rw [hp] at hc
    refine ⟨_, 2 * k + 1, he, by omega, ?_, ?_, rfl, h4, h5, fun _ => hc, h7⟩
    · rw [hmid]; push_cast; ring
    · simp only; rw [h2, pow_succ]; push_cast; field_simp; ring

theorem bracket_loop (f s : List Position2D) (m : Pose2D) (j n k : ℕ) (d : DichoState)
    (h : Bracket f s m n k d) : ∃ d' k', dichoLoop f s j d = .ok d' ∧ Bracket f s m (n + j) k' d' := by
  induction j generalizing n k d with
  | zero => exact ⟨d, k, rfl, h⟩
  | succ j ih =>
    obtain ⟨d1, k1, e1, h1⟩ := bracket_step f s m n k d h
    obtain ⟨d2, k2, e2, h2⟩ := ih (n + 1) k1 d1 h1
    refine ⟨d2, k2, ?_, by rwa [show n + (j + 1) = n + 1 + j by omega]⟩
    unfold dichoLoop
    rw [e1, Res.bind_ok, e2]

/-- The bisection, started on a colliding pose: the new angle is the last of the 32 parts of
`theta` found free, the next one collides. -/
theorem dichotomie_eq (f s : List Position2D) (m : Pose2D) (h : Collides f s m) :
    ∃ k : ℕ, k < 32 ∧ dichotomie f s m = .ok ⟨m.x, m.y, k / 32 * m.theta⟩ ∧
      (k ≠ 0 → ¬ Collides f s ⟨m.x, m.y, k / 32 * m.theta⟩) ∧
      Collides f s ⟨m.x, m.y, (k + 1) / 32 * m.theta⟩ := by
  obtain ⟨d, k, he, h0, h1, h2, h3, h4, h5, h6, h7⟩ := bracket_loop f s m 5 0 0
    ⟨0, m.theta, 0, m⟩ ⟨by norm_num, by simp, by simp, rfl, rfl, rfl, by simp, by simpa using h⟩
  norm_num at h0 h1 h2
  rw [h1] at h6
  rw [h2] at h7
  refine ⟨k, h0, ?_, h6, h7⟩
  unfold dichotomie
  rw [he, Res.bind_ok]
  congr 1
  ext
  · exact h4
  · exact h5
  · exact h3.trans h1

/-- `avoidFootCollision` always returns. The flag says whether the requested move collides.
Position is kept. Without collision the move is unchanged. With collision, the new angle
is `k/32` of the requested one with `0 ≤ k < 32`; unless `k = 0` it is free of collision,
and the next multiple `(k+1)/32` collides. -/
theorem C35_avoid (left right : List Position2D) (isLeft : Bool) (m : Pose2D) :
    ∃ c m', avoidFootCollision left right isLeft m = .ok (c, m') ∧
      (c = true ↔ Collides (if isLeft then left else right) (if isLeft then right else left) m) ∧
      m'.x = m.x ∧ m'.y = m.y ∧ (c = false → m' = m) ∧
      (c = true → ∃ k : ℕ, k < 32 ∧ m'.theta = k / 32 * m.theta ∧
        (k ≠ 0 → ¬ Collides (if isLeft then left else right) (if isLeft then right else left) m') ∧
        Collides (if isLeft then left else right) (if isLeft then right else left)
          ⟨m.x, m.y, (k + 1) / 32 * m.theta⟩) := by
  have main : ∀ f s : List Position2D, ∃ c m',
      ((areTwoBoxesInCollision f (computeBox s m)).bind fun r =>
        if r then (dichotomie f s m).bind fun m => .ok (true, m) else .ok (false, m)) =
        .ok (c, m') ∧
      (c = true ↔ Collides f s m) ∧ m'.x = m.x ∧ m'.y = m.y ∧ (c = false → m' = m) ∧
      (c = true → ∃ k : ℕ, k < 32 ∧ m'.theta = k / 32 * m.theta ∧ (k ≠ 0 → ¬ Collides f s m') ∧
        Collides f s ⟨m.x, m.y, (k + 1) / 32 * m.theta⟩) := by
    intro f s
    obtain ⟨r, hr⟩ := C34_total f (placed s m)
    rw [computeBox_eq, hr, Res.bind_ok]
    cases r
    · refine ⟨false, m, by simp, ?_, rfl, rfl, fun _ => rfl, by simp⟩
      unfold Collides; rw [hr]; simp
    · obtain ⟨k, hk, he, h1, h2⟩ := dichotomie_eq f s m hr
      refine ⟨true, ⟨m.x, m.y, k / 32 * m.theta⟩, by rw [if_pos rfl, he, Res.bind_ok], by simp [Collides, hr], rfl, rfl,
        by simp, fun _ => ⟨k, hk, rfl, h1, h2⟩⟩
  cases isLeft
  · exact main right left
  · exact main left right

/-- The angle is never enlarged nor its sign changed, and a non-zero resulting angle is
free of collision. -/
theorem C35_reduced (left right : List Position2D) (isLeft : Bool) (m m' : Pose2D)
    (h : avoidFootCollision left right isLeft m = .ok (true, m')) :
    |m'.theta| ≤ |m.theta| ∧ 0 ≤ m'.theta * m.theta ∧ (m.theta ≠ 0 → |m'.theta| < |m.theta|) ∧
    (m'.theta ≠ 0 →
      ¬ Collides (if isLeft then left else right) (if isLeft then right else left) m') := by
  obtain ⟨c, m2, he, h1, h2, h3, h4, h5⟩ := C35_avoid left right isLeft m
  rw [h] at he
  obtain ⟨rfl, rfl⟩ := Prod.mk.inj (Res.ok.inj he)
  obtain ⟨k, hk, ht, h6, -⟩ := h5 rfl
  have hk' : (k : ℝ) / 32 < 1 := by
    rw [div_lt_one (by norm_num)]; exact_mod_cast hk
  have hk0 : (0 : ℝ) ≤ (k : ℝ) / 32 := by positivity
  rw [ht, abs_mul, abs_of_nonneg hk0]
  refine ⟨?_, ?_, ?_, ?_⟩
  · nlinarith [abs_nonneg m.theta]
  · nlinarith [mul_self_nonneg m.theta]
  · intro hne; nlinarith [abs_pos.2 hne]
  · intro hne
    apply h6
    rintro rfl
    apply hne; simp

/-- A returned zero angle can still collide: no rotation helps when the other foot's
first vertex is put on the middle of the supporting foot. -/
theorem C35_zero_can_collide : ∃ (left right : List Position2D) (m m' : Pose2D),
    m.theta ≠ 0 ∧ avoidFootCollision left right true m = .ok (true, m') ∧ m'.theta = 0 ∧
    Collides left right m' := by
  have hc : ∀ t : ℝ, Collides [⟨0, 9⟩, ⟨9, -9⟩, ⟨-9, -9⟩] [⟨0, 0⟩, ⟨0, 1⟩, ⟨1, 0⟩] ⟨0, 0, t⟩ := by
    intro t
    unfold Collides
    obtain ⟨r, hr, hr'⟩ := collision_eq [⟨0, 9⟩, ⟨9, -9⟩, ⟨-9, -9⟩]
      (placed [⟨0, 0⟩, ⟨0, 1⟩, ⟨1, 0⟩] ⟨0, 0, t⟩)
    rw [hr, hr'.2 (Or.inr (Or.inr ⟨⟨0, 0⟩, by simp [placed], ?_⟩))]
    intro u v h
    rw [isSide_triangle] at h
    rcases h with ⟨rfl, rfl⟩ | ⟨rfl, rfl⟩ | ⟨rfl, rfl⟩ <;> norm_num [side, Position2D.pt]
  obtain ⟨c, m', he, h1, h2, h3, h4, h5⟩ := C35_avoid [⟨0, 9⟩, ⟨9, -9⟩, ⟨-9, -9⟩]
    [⟨0, 0⟩, ⟨0, 1⟩, ⟨1, 0⟩] true ⟨0, 0, 1⟩
  have hcol := h1.2 (hc 1)
  subst hcol
  obtain ⟨k, hk, ht, h6, -⟩ := h5 rfl
  have hm : m' = ⟨0, 0, m'.theta⟩ := by ext <;> simp [h2, h3]
  have hk0 : k = 0 := by
    by_contra hk0
    apply h6 hk0
    rw [hm]; exact hc _
  subst hk0
  refine ⟨_, _, _, m', by norm_num, he, by simpa using ht, ?_⟩
  rw [hm]; exact hc _

/-- The case of `C35_reduced` occurs: there are moves that are clamped. -/
example : ∃ (left right : List Position2D) (m m' : Pose2D),
    avoidFootCollision left right true m = .ok (true, m') := by
  obtain ⟨l, r, m, m', -, h, -⟩ := C35_zero_can_collide
  exact ⟨l, r, m, m', h⟩

/-! ### C36 -/

theorem clip_k (a b x y : ℝ) (ha : 0 < a) (hb : 0 < b) (hxy : x ≠ 0 ∨ y ≠ 0) :
    ∃ k : ℝ, 0 < k ∧
      (a * b) / √(b ^ 2 * Real.cos (atan2 y x) * Real.cos (atan2 y x) +
        a ^ 2 * Real.sin (atan2 y x) * Real.sin (atan2 y x)) * Real.cos (atan2 y x) = k * x ∧
      (a * b) / √(b ^ 2 * Real.cos (atan2 y x) * Real.cos (atan2 y x) +
        a ^ 2 * Real.sin (atan2 y x) * Real.sin (atan2 y x)) * Real.sin (atan2 y x) = k * y ∧
      k ^ 2 * (x ^ 2 / a ^ 2 + y ^ 2 / b ^ 2) = 1 := by
  have hr : 0 < x ^ 2 + y ^ 2 := by
    rcases hxy with h | h
    · have := sq_pos_of_ne_zero h; positivity
    · have := sq_pos_of_ne_zero h; positivity
  set r := √(x ^ 2 + y ^ 2) with hrdef
  have hr0 : 0 < r := Real.sqrt_pos.2 hr
  have hr2 : r ^ 2 = x ^ 2 + y ^ 2 := Real.sq_sqrt hr.le
  have hx : r * Real.cos (atan2 y x) = x := by
    have := Complex.norm_mul_cos_arg (⟨x, y⟩ : ℂ)
    rw [Complex.norm_def, Complex.normSq_mk] at this
    rw [hrdef, show x ^ 2 + y ^ 2 = x * x + y * y by ring]
    exact this
  have hy : r * Real.sin (atan2 y x) = y := by
    have := Complex.norm_mul_sin_arg (⟨x, y⟩ : ℂ)
    rw [Complex.norm_def, Complex.normSq_mk] at this
    rw [hrdef, show x ^ 2 + y ^ 2 = x * x + y * y by ring]
    exact this
  set c := Real.cos (atan2 y x)
  set s := Real.sin (atan2 y x)
  have hq : 0 < b ^ 2 * c * c + a ^ 2 * s * s := by
    have : r ^ 2 * (b ^ 2 * c * c + a ^ 2 * s * s) = b ^ 2 * x ^ 2 + a ^ 2 * y ^ 2 := by
      rw [← hx, ← hy]; ring
    have h2 : 0 < b ^ 2 * x ^ 2 + a ^ 2 * y ^ 2 := by
      rcases hxy with h | h
      · have := sq_pos_of_ne_zero h; positivity
      · have := sq_pos_of_ne_zero h; positivity
    by_contra hn
    nlinarith [sq_nonneg r]
  set q := √(b ^ 2 * c * c + a ^ 2 * s * s) with hqdef
  have hq0 : 0 < q := Real.sqrt_pos.2 hq
  have hq2 : q ^ 2 = b ^ 2 * c * c + a ^ 2 * s * s := Real.sq_sqrt hq.le
  clear_value q c s r
  refine ⟨a * b / (q * r), by positivity, ?_, ?_, ?_⟩
  · rw [← hx]; field_simp
  · rw [← hy]; field_simp
  · rw [← hx, ← hy]
    field_simp
    rw [hq2]; ring

/-- With non-zero axes the call always returns, changes neither theta nor the direction of
the move; a move with `x²/a² + y²/b² < 1.00001` is left unchanged and reported as such; any
other move is scaled, by a positive factor of at most one, onto the ellipse. -/
theorem C36_clip (a b : ℝ) (ha : a ≠ 0) (hb : b ≠ 0) (m : Pose2D) :
    ∃ c m', clipFootWithEllipse a b m = .ok (c, m') ∧
      (c = false ↔ m.x ^ 2 / a ^ 2 + m.y ^ 2 / b ^ 2 < 1.00001) ∧
      (c = false → m' = m) ∧
      (c = true → m'.theta = m.theta ∧ m'.x ^ 2 / a ^ 2 + m'.y ^ 2 / b ^ 2 = 1 ∧
        ∃ k : ℝ, 0 < k ∧ k ≤ 1 ∧ m'.x = k * m.x ∧ m'.y = k * m.y) := by
  unfold clipFootWithEllipse
  dsimp only
  have ha' : |a| ^ 2 ≠ 0 := by rw [sq_abs]; positivity
  have hb' : |b| ^ 2 ≠ 0 := by rw [sq_abs]; positivity
  rw [if_neg (by tauto)]
  have hn : m.x * m.x / |a| ^ 2 + m.y * m.y / |b| ^ 2 = m.x ^ 2 / a ^ 2 + m.y ^ 2 / b ^ 2 := by
    rw [sq_abs, sq_abs, sq m.x, sq m.y]
  rw [hn]
  split_ifs with h
  · exact ⟨false, m, rfl, by simp [h], fun _ => rfl, by simp⟩
  · have hxy : m.x ≠ 0 ∨ m.y ≠ 0 := by
      by_contra hc
      push Not at hc
      apply h
      rw [hc.1, hc.2]; norm_num
    obtain ⟨k, k0, e1, e2, e3⟩ := clip_k |a| |b| m.x m.y (abs_pos.2 ha) (abs_pos.2 hb) hxy
    rw [sq_abs, sq_abs] at e3
    refine ⟨true, _, rfl, by simp [h], by simp, fun _ => ⟨rfl, ?_, k, k0, ?_, e1, e2⟩⟩
    · dsimp only
      rw [e1, e2, ← e3]; ring
    · by_contra hk
      push Not at hk h
      have : 1 < k ^ 2 := by nlinarith
      nlinarith

example : (3 : ℝ) ≠ 0 ∧ (2 : ℝ) ≠ 0 := by norm_num

/-- A second call changes nothing and returns false. -/
theorem C36_idempotent (a b : ℝ) (m m' : Pose2D) (c : Bool)
    (h : clipFootWithEllipse a b m = .ok (c, m')) :
    clipFootWithEllipse a b m' = .ok (false, m') := by
  by_cases hab : a = 0 ∨ b = 0
  · unfold clipFootWithEllipse at h
    dsimp only at h
    rw [if_pos (by rcases hab with h | h <;> simp [h])] at h
    cases h
  · push Not at hab
    obtain ⟨c1, m1, e1, h1, h2, h3⟩ := C36_clip a b hab.1 hab.2 m
    rw [h] at e1
    obtain ⟨rfl, rfl⟩ := Prod.mk.inj (Res.ok.inj e1)
    obtain ⟨c2, m2, e2, g1, g2, g3⟩ := C36_clip a b hab.1 hab.2 m'
    have : c2 = false := by
      rw [g1]
      cases c with
      | false => rw [h2 rfl]; exact h1.1 rfl
      | true => rw [(h3 rfl).2.1]; norm_num
    subst this
    rw [e2, g2 rfl]

example : ∃ c m', clipFootWithEllipse 2 1 ⟨4, 0, 0.3⟩ = .ok (c, m') := by
  obtain ⟨c, m', h, -⟩ := C36_clip 2 1 (by norm_num) (by norm_num) ⟨4, 0, 0.3⟩
  exact ⟨c, m', h⟩

/-- A zero axis makes the call divide by zero. -/
theorem C36_zero_axis (a b : ℝ) (m : Pose2D) :
    clipFootWithEllipse a b m = .ub ↔ a = 0 ∨ b = 0 := by
  constructor
  · intro h
    by_contra hab
    push Not at hab
    obtain ⟨c1, m1, e1, -⟩ := C36_clip a b hab.1 hab.2 m
    rw [e1] at h; cases h
  · intro hab
    unfold clipFootWithEllipse
    dsimp only
    rw [if_pos (by rcases hab with h | h <;> simp [h])]

end AlMath
