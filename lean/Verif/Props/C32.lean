import Verif.Model.AlMath

/-!
C32: occupancy map conversions.
-/

namespace AlMath

open OccupancyMapParams

namespace Spec

/-- `n` is `x` rounded to the nearest integer, halves away from zero. Not in /repo:
specification. -/
def RoundsTo (x : ℝ) (n : ℤ) : Prop :=
  |x - n| ≤ 1 / 2 ∧ (|x - n| = 1 / 2 → |x| < |(n : ℝ)|)

/-- `n` is a 32-bit signed integer. Not in /repo: specification. -/
def FitsInt (n : ℤ) : Prop := -2 ^ 31 ≤ n ∧ n < 2 ^ 31

end Spec

open Spec

theorem roundsTo_unique {x : ℝ} {m n : ℤ} (hm : RoundsTo x m) (hn : RoundsTo x n) : m = n := by
  obtain ⟨a1, a2⟩ := hm
  obtain ⟨b1, b2⟩ := hn
  by_contra hne
  wlog hlt : m < n generalizing m n
  · exact this b1 b2 a1 a2 (Ne.symm hne) (lt_of_le_of_ne (not_lt.1 hlt) (Ne.symm hne))
  have h1 : (m : ℝ) + 1 ≤ n := by exact_mod_cast hlt
  obtain ⟨c1, c2⟩ := abs_le.1 a1
  obtain ⟨d1, d2⟩ := abs_le.1 b1
  have e1 : x - m = 1 / 2 := by linarith
  have e2 : x - n = -(1 / 2) := by linarith
  have hn1 : (n : ℝ) = m + 1 := by linarith
  have f1 := a2 (by rw [e1]; norm_num)
  have f2 := b2 (by rw [e2]; norm_num)
  have hx : x = m + 1 / 2 := by linarith
  rw [hx] at f1 f2
  rw [hn1] at f2
  rcases le_or_gt 0 m with h0 | h0
  · have h0' : (0 : ℝ) ≤ m := by exact_mod_cast h0
    rw [abs_of_nonneg (by linarith), abs_of_nonneg h0'] at f1
    linarith
  · have h0' : (m : ℝ) + 1 ≤ 0 := by exact_mod_cast h0
    rw [abs_of_nonpos (by linarith), abs_of_nonpos h0'] at f2
    linarith

theorem roundsTo_pos {x : ℝ} (h : 0 ≤ x) : RoundsTo x (truncZ (x + 0.5)) := by
  unfold truncZ
  rw [if_pos (by linarith)]
  have h1 := Int.floor_le (x + 0.5)
  have h2 : x + 0.5 - 1 < ⌊x + 0.5⌋ := by linarith [Int.lt_floor_add_one (x + 0.5)]
  have e : (0.5 : ℝ) = 1 / 2 := by norm_num
  have h3 : (0 : ℤ) ≤ ⌊x + 0.5⌋ := Int.floor_nonneg.2 (by linarith)
  have h3' : (0 : ℝ) ≤ ⌊x + 0.5⌋ := by exact_mod_cast h3
  rw [e] at h1 h2 h3' ⊢
  constructor
  · rw [abs_le]; constructor <;> linarith
  · intro h4
    rcases (abs_eq (by norm_num)).1 h4 with h5 | h5
    · linarith
    · rw [abs_of_nonneg h, abs_of_nonneg (by linarith)]; linarith

theorem roundsTo_neg {x : ℝ} (h : x < 0) : RoundsTo x (truncZ (x - 0.5)) := by
  unfold truncZ
  rw [if_neg (by linarith)]
  have h1 := Int.le_ceil (x - 0.5)
  have h2 := Int.ceil_lt_add_one (x - 0.5)
  have e : (0.5 : ℝ) = 1 / 2 := by norm_num
  have h3 : ⌈x - 0.5⌉ ≤ (0 : ℤ) := by rw [Int.ceil_le]; push_cast; linarith
  have h3' : (⌈x - 0.5⌉ : ℝ) ≤ 0 := by exact_mod_cast h3
  rw [e] at h1 h2 h3' ⊢
  constructor
  · rw [abs_le]; constructor <;> linarith
  · intro h4
    rcases (abs_eq (by norm_num)).1 h4 with h5 | h5
    · rw [abs_of_neg h, abs_of_nonpos (by linarith)]; linarith
    · linarith

theorem roundToInt_spec (x : ℝ) : ∃ n : ℤ, RoundsTo x n ∧
    (FitsInt n → roundToInt x = .ok n) ∧ (¬ FitsInt n → roundToInt x = .ub) := by
  have hi : ∀ n, IsInt n ↔ FitsInt n := fun n => by unfold IsInt FitsInt; omega
  unfold roundToInt castInt
  by_cases h0 : x ≥ 0
  · refine ⟨truncZ (x + 0.5), roundsTo_pos h0, ?_, ?_⟩ <;> intro h <;> rw [if_pos h0]
    · rw [if_pos ((hi _).2 h)]
    · rw [if_neg fun h' => h ((hi _).1 h')]
  · refine ⟨truncZ (x - 0.5), roundsTo_neg (not_le.1 h0), ?_, ?_⟩ <;> intro h <;> rw [if_neg h0]
    · rw [if_pos ((hi _).2 h)]
    · rw [if_neg fun h' => h ((hi _).1 h')]

/-- `roundToInt` rounds to nearest (halves away from zero); it is undefined exactly if the
rounded value is not an `int`. -/
theorem C32_round (x : ℝ) :
    (∀ n, roundToInt x = .ok n ↔ RoundsTo x n ∧ FitsInt n) ∧
    (roundToInt x = .ub ↔ ∀ n, RoundsTo x n → ¬ FitsInt n) := by
  obtain ⟨m, hm, h1, h2⟩ := roundToInt_spec x
  constructor
  · intro n
    constructor
    · intro h
      by_cases hi : FitsInt m
      · rw [h1 hi] at h; cases h; exact ⟨hm, hi⟩
      · rw [h2 hi] at h; cases h
    · rintro ⟨hn, hi⟩
      obtain rfl := roundsTo_unique hm hn
      exact h1 hi
  · constructor
    · intro h n hn hi
      obtain rfl := roundsTo_unique hm hn
      rw [h1 hi] at h; cases h
    · intro h; exact h2 (h m hm)

theorem roundsTo_int (n : ℤ) : RoundsTo n n := by
  unfold RoundsTo; norm_num

/-- Pixel coordinates of a point, characterised: the pixel is the point in map
coordinates (x along the map, y reversed, in pixels), rounded; the conversion is
undefined exactly for a zero resolution or a pixel that does not fit in `int`. -/
theorem C32_pixel (m : OccupancyMapParams) (p : Position2D) :
    (∀ q, m.getPixelFromPosition p = .ok q ↔ m.metersPerPixel ≠ 0 ∧
      RoundsTo ((p.x - m.originOffset.x) / m.metersPerPixel) q.x ∧ FitsInt q.x ∧
      RoundsTo ((m.originOffset.y - p.y) / m.metersPerPixel) q.y ∧ FitsInt q.y) ∧
    m.getPixelFromPosition p ≠ .throws := by
  unfold getPixelFromPosition getPixelFromOffsetAndScale pose2DFromPosition2D
  by_cases hz : m.metersPerPixel = 0
  · rw [if_pos hz]; simp [hz]
  rw [if_neg hz]
  dsimp only
  have ex : (p.x - m.originOffset.x) * (1 / m.metersPerPixel) =
      (p.x - m.originOffset.x) / m.metersPerPixel := by ring
  have ey : -(p.y - m.originOffset.y) * (1 / m.metersPerPixel) =
      (m.originOffset.y - p.y) / m.metersPerPixel := by ring
  rw [ex, ey]
  obtain ⟨nx, hx, hx1, hx2⟩ := roundToInt_spec ((p.x - m.originOffset.x) / m.metersPerPixel)
  obtain ⟨ny, hy, hy1, hy2⟩ := roundToInt_spec ((m.originOffset.y - p.y) / m.metersPerPixel)
  have key : ∀ q : Point2Di, (m.metersPerPixel ≠ 0 ∧
      RoundsTo ((p.x - m.originOffset.x) / m.metersPerPixel) q.x ∧ FitsInt q.x ∧
      RoundsTo ((m.originOffset.y - p.y) / m.metersPerPixel) q.y ∧ FitsInt q.y) ↔
      (nx = q.x ∧ FitsInt nx) ∧ ny = q.y ∧ FitsInt ny := by
    intro q
    constructor
    · rintro ⟨-, h1, h2, h3, h4⟩
      have e1 := roundsTo_unique hx h1
      have e2 := roundsTo_unique hy h3
      exact ⟨⟨e1, e1 ▸ h2⟩, e2, e2 ▸ h4⟩
    · rintro ⟨⟨h1, h2⟩, h3, h4⟩
      rw [← h1, ← h3]; exact ⟨hz, hx, h2, hy, h4⟩
  constructor
  · intro q
    rw [key]
    by_cases hix : FitsInt nx
    · rw [hx1 hix, Res.bind_ok]
      by_cases hiy : FitsInt ny
      · rw [hy1 hiy, Res.bind_ok]
        simp [Point2Di.ext_iff, hix, hiy]
      · rw [hy2 hiy]; simp [hiy]
    · rw [hx2 hix]; simp [hix]
  · by_cases hix : FitsInt nx
    · rw [hx1 hix, Res.bind_ok]
      by_cases hiy : FitsInt ny
      · rw [hy1 hiy]; simp
      · rw [hy2 hiy]; simp
    · rw [hx2 hix]; simp

/-- Converting a pixel to a position and back gives the same pixel, for any resolution
other than zero and any pixel of `int` coordinates, but one. Missing for the full claim: the
position of a pixel whose y is the smallest `int` is undefined (`C32_pixel_undefined`). -/
theorem C32_pixel_back_partial (m : OccupancyMapParams) (q : Point2Di) (hm : m.metersPerPixel ≠ 0)
    (hx : FitsInt q.x) (hy : FitsInt q.y) (hy' : q.y ≠ -2147483648) :
    ∃ p, m.getPositionFromPixel q = .ok p ∧ m.getPixelFromPosition p = .ok q := by
  refine ⟨_, by unfold getPositionFromPixel negInt; rw [if_neg hy', Res.bind_ok], ?_⟩
  rw [(C32_pixel m _).1]
  refine ⟨hm, ?_, hx, ?_, hy⟩
  · have : (q.x * m.metersPerPixel + m.originOffset.x - m.originOffset.x) / m.metersPerPixel =
        q.x := by field_simp; ring
    simp only [this]; exact roundsTo_int _
  · have : (m.originOffset.y - (((-q.y : ℤ) : ℝ) * m.metersPerPixel + m.originOffset.y)) /
        m.metersPerPixel = q.y := by push_cast; field_simp; ring
    simp only [this]; exact roundsTo_int _

example : ∃ (m : OccupancyMapParams) (q : Point2Di), m.metersPerPixel ≠ 0 ∧ FitsInt q.x ∧
    FitsInt q.y ∧ q.y ≠ -2147483648 :=
  ⟨⟨100, 0.05, ⟨1, 2⟩, 0.25⟩, ⟨3, -7⟩, by norm_num, by constructor <;> norm_num,
    by constructor <;> norm_num, by norm_num⟩

/-- Pixels whose y is the smallest `int` have no position: its opposite is not an `int`. -/
theorem C32_pixel_undefined (m : OccupancyMapParams) (x : ℤ) :
    m.getPositionFromPixel ⟨x, -2147483648⟩ = .ub := by
  simp [getPositionFromPixel, negInt]

/-- Converting a point to its pixel and back moves it by at most half a pixel along each
axis. -/
theorem C32_position_back (m : OccupancyMapParams) (p p' : Position2D) (q : Point2Di)
    (h : m.getPixelFromPosition p = .ok q) (h' : m.getPositionFromPixel q = .ok p') :
    |p'.x - p.x| ≤ |m.metersPerPixel| / 2 ∧ |p'.y - p.y| ≤ |m.metersPerPixel| / 2 := by
  obtain ⟨hm, hx, -, hy, -⟩ := ((C32_pixel m p).1 q).1 h
  unfold getPositionFromPixel negInt at h'
  split_ifs at h' with hmin
  · simp at h'
  rw [Res.bind_ok] at h'
  have h' := Res.ok.inj h'
  subst h'
  have hx := hx.1
  have hy := hy.1
  have e1 : (p.x - m.originOffset.x) / m.metersPerPixel - q.x =
      -((q.x * m.metersPerPixel + m.originOffset.x - p.x) / m.metersPerPixel) := by
    field_simp; ring
  have e2 : (m.originOffset.y - p.y) / m.metersPerPixel - q.y =
      (((-q.y : ℤ) : ℝ) * m.metersPerPixel + m.originOffset.y - p.y) / m.metersPerPixel := by
    push_cast; field_simp; ring
  rw [e1, abs_neg, abs_div, div_le_iff₀ (abs_pos.2 hm)] at hx
  rw [e2, abs_div, div_le_iff₀ (abs_pos.2 hm)] at hy
  exact ⟨by linarith, by linarith⟩

example : (OccupancyMapParams.mk 100 1 ⟨0, 0⟩ 0.25).getPixelFromPosition ⟨2, -3⟩ = .ok ⟨2, 3⟩ ∧
    (OccupancyMapParams.mk 100 1 ⟨0, 0⟩ 0.25).getPositionFromPixel ⟨2, 3⟩ = .ok ⟨2, -3⟩ := by
  constructor
  · rw [(C32_pixel _ _).1]
    refine ⟨by norm_num, ?_, by constructor <;> norm_num, ?_, by constructor <;> norm_num⟩ <;>
      norm_num [RoundsTo]
  · norm_num [getPositionFromPixel, negInt]

/-- The offset set by the constructor makes the pixel `(size/2, size/2)` the map centre:
the position of any pixel is the centre plus the pixel's displacement from the middle of
the map, times the resolution, with y reversed. -/
theorem C32_origin (size : ℤ) (mpp thr : ℝ) (c : Position2D) (q : Point2Di)
    (hy : q.y ≠ -2147483648) :
    (OccupancyMapParams.mk' size mpp c thr).getPositionFromPixel q =
      .ok ⟨c.x + (q.x - size / 2) * mpp, c.y - (q.y - size / 2) * mpp⟩ := by
  unfold getPositionFromPixel negInt OccupancyMapParams.mk' initOriginOffset
  rw [if_neg hy, Res.bind_ok]
  have e : (2.0 : ℝ) = 2 := by norm_num
  congr 1
  ext <;> simp [e] <;> ring

/-- A pose converts like its position: its orientation plays no role, and is kept when
converting back. -/
theorem C32_pose (m : OccupancyMapParams) (p : Pose2D) (q : Pose2Di) :
    m.getPixelFromPose p = m.getPixelFromPosition ⟨p.x, p.y⟩ ∧
    m.getPoseFromPixel q =
      (m.getPositionFromPixel ⟨q.x, q.y⟩).map fun r => ⟨r.x, r.y, q.theta⟩ := by
  constructor
  · rfl
  · unfold getPoseFromPixel getPositionFromPixel negInt
    split_ifs <;> rfl

/-- The pixel displacement of a metric displacement is that displacement, in pixels with
y reversed, rounded; it does not depend on the origin of the map. -/
theorem C32_delta (m : OccupancyMapParams) (d : Position2D) (q : Point2Di) :
    m.getDeltaPixelFromDeltaPosition d = .ok q ↔ m.metersPerPixel ≠ 0 ∧
      RoundsTo (d.x / m.metersPerPixel) q.x ∧ FitsInt q.x ∧
      RoundsTo (-d.y / m.metersPerPixel) q.y ∧ FitsInt q.y := by
  have h := (C32_pixel { m with originOffset := ⟨0, 0⟩ } d).1 q
  simp only [sub_zero, zero_sub] at h
  exact h

/-- For a positive resolution, a point further along x gets a pixel at least as far along
x, and a point further along y gets a pixel at most as far along y. -/
theorem C32_monotone (m : OccupancyMapParams) (p p' : Position2D) (q q' : Point2Di)
    (hm : 0 < m.metersPerPixel) (h : m.getPixelFromPosition p = .ok q)
    (h' : m.getPixelFromPosition p' = .ok q') :
    (p.x ≤ p'.x → q.x ≤ q'.x) ∧ (p.y ≤ p'.y → q'.y ≤ q.y) := by
  have mono : ∀ {x y : ℝ} {a b : ℤ}, RoundsTo x a → RoundsTo y b → x ≤ y → a ≤ b := by
    intro x y a b ha hb hxy
    by_contra hn
    have h1 : (b : ℝ) + 1 ≤ a := by exact_mod_cast not_le.1 hn
    obtain ⟨c1, c2⟩ := abs_le.1 ha.1
    obtain ⟨d1, d2⟩ := abs_le.1 hb.1
    have hxy' : x = y := by linarith
    subst hxy'
    have := roundsTo_unique ha hb
    omega
  obtain ⟨-, hx, -, hy, -⟩ := ((C32_pixel m p).1 q).1 h
  obtain ⟨-, hx', -, hy', -⟩ := ((C32_pixel m p').1 q').1 h'
  constructor
  · intro hle
    exact mono hx hx' (div_le_div_of_nonneg_right (by linarith) hm.le)
  · intro hle
    exact mono hy' hy (div_le_div_of_nonneg_right (by linarith) hm.le)

end AlMath
