import Verif.Model.Dubins
import Verif.Props.C27

/-!
C37: Dubins solutions are tangent paths.
-/

namespace AlMath

namespace Spec

/-- Centre of the circle of radius `r` followed when turning left (right) from a pose.
Not in /repo: specification. -/
noncomputable def turnCenter (left : Bool) (r : ℝ) (p : Pose2D) : ℝ × ℝ :=
  if left then (p.x - r * Real.sin p.theta, p.y + r * Real.cos p.theta)
  else (p.x + r * Real.sin p.theta, p.y - r * Real.cos p.theta)

/-- An arc, segment, arc path from the pose `(0, 0, 0)` to the target: the arc from the
start, turning to the side `l1`, reaches `(x1, y1)` with heading `phi`; going straight for
`len` reaches `(x2, y2)`; from there, with the same heading, an arc turning to the side `l2`
reaches the target. Both arcs have radius `r` and are tangent to the segment.
Not in /repo: specification. -/
def IsDubinsPath (target : Pose2D) (r : ℝ) (l1 l2 : Bool) (x1 y1 x2 y2 phi len : ℝ) : Prop :=
  turnCenter l1 r ⟨x1, y1, phi⟩ = turnCenter l1 r ⟨0, 0, 0⟩ ∧
  turnCenter l2 r ⟨x2, y2, phi⟩ = turnCenter l2 r target ∧
  x2 = x1 + len * Real.cos phi ∧ y2 = y1 + len * Real.sin phi ∧ 0 ≤ len

end Spec

open Spec

theorem exists_heading (c s : ℝ) (h : c ^ 2 + s ^ 2 = 1) :
    Real.cos (atan2 s c) = c ∧ Real.sin (atan2 s c) = s := by
  have hn : ‖(⟨c, s⟩ : ℂ)‖ = 1 := by
    rw [Complex.norm_def, Complex.normSq_mk, show c * c + s * s = 1 by linarith, Real.sqrt_one]
  have h1 := Complex.norm_mul_cos_arg (⟨c, s⟩ : ℂ)
  have h2 := Complex.norm_mul_sin_arg (⟨c, s⟩ : ℂ)
  rw [hn, one_mul] at h1 h2
  exact ⟨h1, h2⟩

theorem atan2_scale (c s k : ℝ) (hk : 0 < k) : atan2 (k * s) (k * c) = atan2 s c := by
  unfold atan2
  have : (⟨k * c, k * s⟩ : ℂ) = (k : ℂ) * ⟨c, s⟩ := by apply Complex.ext <;> simp
  rw [this, Complex.arg_real_mul _ hk]

/-- Squared distance of the centres of the turning circles of start and target. -/
noncomputable def centerDistSq (target : Pose2D) (r : ℝ) (l1 l2 : Bool) : ℝ :=
  ((turnCenter l2 r target).1 - (turnCenter l1 r ⟨0, 0, 0⟩).1) ^ 2 +
  ((turnCenter l2 r target).2 - (turnCenter l1 r ⟨0, 0, 0⟩).2) ^ 2

/-- The straight length of a path depends only on the sides. -/
theorem path_len {target : Pose2D} {r x1 y1 x2 y2 phi len : ℝ} {l1 l2 : Bool}
    (h : IsDubinsPath target r l1 l2 x1 y1 x2 y2 phi len) :
    len ^ 2 = centerDistSq target r l1 l2 - if l1 = l2 then 0 else 4 * r ^ 2 := by
  obtain ⟨h1, h2, h3, h4, -⟩ := h
  have hcs := Real.sin_sq_add_cos_sq phi
  unfold centerDistSq
  rw [← h1, ← h2]
  cases l1 <;> cases l2 <;> simp only [turnCenter, h3, h4, if_true, if_false, Bool.false_eq_true,
    Bool.true_eq_false, reduceIte] <;>
    first
    | linear_combination (-len ^ 2) * hcs
    | linear_combination (-len ^ 2 - 4 * r ^ 2) * hcs

/-- What `xComputeTangent` gives for circles at a distance `d ≥ 2r`, `d > 0`. The circle
centres are the turning centres of the two points with the common heading. -/
theorem tangent_spec (c1 c2 : Position2D) (left same : Bool) (r : ℝ) (hr : 0 ≤ r)
    (hd : 0 < (c2.x - c1.x) ^ 2 + (c2.y - c1.y) ^ 2)
    (hd2 : 4 * r ^ 2 ≤ (c2.x - c1.x) ^ 2 + (c2.y - c1.y) ^ 2) :
    ∃ (p1 p2 : DubinsTangent) (c s len : ℝ),
      xComputeTangent c1 c2 (if left then 1 else -1) r same = .ok (p1, p2) ∧
      c ^ 2 + s ^ 2 = 1 ∧ 0 ≤ len ∧ p2.x = p1.x + len * c ∧ p2.y = p1.y + len * s ∧
      (if left then p1.x - r * s = c1.x ∧ p1.y + r * c = c1.y
       else p1.x + r * s = c1.x ∧ p1.y - r * c = c1.y) ∧
      (if left = same then p2.x - r * s = c2.x ∧ p2.y + r * c = c2.y
       else p2.x + r * s = c2.x ∧ p2.y - r * c = c2.y) := by
  have e : (c1.x - c2.x) * (c1.x - c2.x) + (c1.y - c2.y) * (c1.y - c2.y) =
      (c2.x - c1.x) ^ 2 + (c2.y - c1.y) ^ 2 := by ring
  unfold xComputeTangent
  dsimp only
  rw [e]
  set d := √((c2.x - c1.x) ^ 2 + (c2.y - c1.y) ^ 2) with hdd
  have d0 : 0 < d := Real.sqrt_pos.2 hd
  have dsq : d ^ 2 = (c2.x - c1.x) ^ 2 + (c2.y - c1.y) ^ 2 := Real.sq_sqrt hd.le
  clear_value d
  rw [if_neg d0.ne']
  cases same with
  | true =>
    rw [if_neg (by simp)]
    cases left with
    | true =>
      refine ⟨_, _, (c2.x - c1.x) / d, (c2.y - c1.y) / d, d, rfl, ?_, d0.le, ?_, ?_, ?_, ?_⟩
      · field_simp; linarith
      · simp; field_simp; ring
      · simp; field_simp; ring
      · simp; constructor <;> (field_simp; ring)
      · simp; constructor <;> (field_simp; ring)
    | false =>
      refine ⟨_, _, (c2.x - c1.x) / d, (c2.y - c1.y) / d, d, rfl, ?_, d0.le, ?_, ?_, ?_, ?_⟩
      · field_simp; linarith
      · simp; field_simp; ring
      · simp; field_simp; ring
      · simp; constructor <;> (field_simp; ring)
      · simp; constructor <;> (field_simp; ring)
  | false =>
    set k := r * 2 / d with hk
    have hkd : k * d = 2 * r := by rw [hk]; field_simp
    have hk1 : 0 ≤ 1 - k * k := by
      have : k ^ 2 * d ^ 2 ≤ d ^ 2 := by
        rw [← mul_pow, hkd, dsq]; linarith
      by_contra hn
      nlinarith [pow_pos d0 2]
    have hrk : r = k * d / 2 := by linarith
    clear_value k
    simp only [Bool.false_eq_true, if_false, not_false_eq_true, true_and]
    rw [if_neg (not_lt.2 hk1)]
    set w := √(1 - k * k) with hw
    have w0 : 0 ≤ w := Real.sqrt_nonneg _
    have wsq : w ^ 2 = 1 - k * k := Real.sq_sqrt hk1
    clear_value w
    subst hrk
    cases left with
    | true =>
      refine ⟨_, _, (w * (c2.x - c1.x) - k * (c2.y - c1.y)) / d,
        (k * (c2.x - c1.x) + w * (c2.y - c1.y)) / d, d * w, rfl, ?_, by positivity, ?_, ?_, ?_, ?_⟩
      · field_simp
        linear_combination ((c2.x - c1.x) ^ 2 + (c2.y - c1.y) ^ 2) * wsq - dsq
      · simp; field_simp; linear_combination 2 * (c1.x - c2.x) * wsq
      · simp; field_simp; linear_combination 2 * (c1.y - c2.y) * wsq
      · simp; constructor <;> (field_simp; ring)
      · simp; constructor <;> (field_simp; ring)
    | false =>
      refine ⟨_, _, (w * (c2.x - c1.x) + k * (c2.y - c1.y)) / d,
        (-k * (c2.x - c1.x) + w * (c2.y - c1.y)) / d, d * w, rfl, ?_, by positivity, ?_, ?_, ?_, ?_⟩
      · field_simp
        linear_combination ((c2.x - c1.x) ^ 2 + (c2.y - c1.y) ^ 2) * wsq - dsq
      · simp; field_simp; linear_combination 2 * (c1.x - c2.x) * wsq
      · simp; field_simp; linear_combination 2 * (c1.y - c2.y) * wsq
      · simp; constructor <;> (field_simp; ring)
      · simp; constructor <;> (field_simp; ring)

/-- Squared length of a candidate. -/
noncomputable def candLen (t : DubinsTangent × DubinsTangent) : ℝ :=
  (t.1.x - t.2.x) * (t.1.x - t.2.x) + (t.1.y - t.2.y) * (t.1.y - t.2.y)

theorem bestLoop_spec (ts : List (DubinsTangent × DubinsTangent)) (m : ℝ)
    (b : DubinsTangent × DubinsTangent) :
    (bestLoop ts m b = b ∧ ∀ t ∈ ts, m ≤ candLen t) ∨
    (bestLoop ts m b ∈ ts ∧ candLen (bestLoop ts m b) < m ∧
      ∀ t ∈ ts, candLen (bestLoop ts m b) ≤ candLen t) := by
  induction ts generalizing m b with
  | nil => left; exact ⟨rfl, by simp⟩
  | cons t ts ih =>
    have e : bestLoop (t :: ts) m b =
        if candLen t < m then bestLoop ts (candLen t) t else bestLoop ts m b := rfl
    rw [e]
    split_ifs with h
    · right
      rcases ih (candLen t) t with ⟨h1, h2⟩ | ⟨h1, h2, h3⟩
      · rw [h1]
        refine ⟨by simp, h, ?_⟩
        intro u hu
        rcases List.mem_cons.1 hu with rfl | hu
        · exact le_refl _
        · exact h2 u hu
      · refine ⟨by simp [h1], by linarith, ?_⟩
        intro u hu
        rcases List.mem_cons.1 hu with rfl | hu
        · exact h2.le
        · exact h3 u hu
    · rcases ih m b with ⟨h1, h2⟩ | ⟨h1, h2, h3⟩
      · left
        refine ⟨h1, ?_⟩
        intro u hu
        rcases List.mem_cons.1 hu with rfl | hu
        · exact not_lt.1 h
        · exact h2 u hu
      · right
        refine ⟨by simp [h1], h2, ?_⟩
        intro u hu
        rcases List.mem_cons.1 hu with rfl | hu
        · linarith
        · exact h3 u hu

/-- The centres of the turning circles are at least half as far apart as the poses. -/
theorem centers_apart (target : Pose2D) (r : ℝ) (hr : 0 ≤ r)
    (h4 : 4 * r ≤ √(target.x ^ 2 + target.y ^ 2)) (l1 l2 : Bool) :
    (target.x ^ 2 + target.y ^ 2) / 4 ≤ centerDistSq target r l1 l2 ∧
    4 * r ^ 2 ≤ centerDistSq target r l1 l2 ∧
    centerDistSq target r l1 l2 ≤ 9 / 4 * (target.x ^ 2 + target.y ^ 2) := by
  have hn : 0 ≤ target.x ^ 2 + target.y ^ 2 := by positivity
  set D := √(target.x ^ 2 + target.y ^ 2) with hD
  have D0 : 0 ≤ D := Real.sqrt_nonneg _
  have D2 : D ^ 2 = target.x ^ 2 + target.y ^ 2 := Real.sq_sqrt hn
  clear_value D
  -- centre difference = target + w with |w| ≤ 2r
  obtain ⟨wx, wy, hw, he⟩ : ∃ wx wy : ℝ, wx ^ 2 + wy ^ 2 ≤ 4 * r ^ 2 ∧
      centerDistSq target r l1 l2 = (target.x + wx) ^ 2 + (target.y + wy) ^ 2 := by
    have hcs := Real.sin_sq_add_cos_sq target.theta
    have hc1 := Real.cos_le_one target.theta
    have hc2 := Real.neg_one_le_cos target.theta
    have hr2 := sq_nonneg r
    cases l1 <;> cases l2
    · refine ⟨r * Real.sin target.theta, r - r * Real.cos target.theta, by nlinarith, ?_⟩
      simp only [centerDistSq, turnCenter]; simp; ring
    · refine ⟨-r * Real.sin target.theta, r + r * Real.cos target.theta, by nlinarith, ?_⟩
      simp only [centerDistSq, turnCenter]; simp; ring
    · refine ⟨r * Real.sin target.theta, -r - r * Real.cos target.theta, by nlinarith, ?_⟩
      simp only [centerDistSq, turnCenter]; simp; ring
    · refine ⟨-r * Real.sin target.theta, -r + r * Real.cos target.theta, by nlinarith, ?_⟩
      simp only [centerDistSq, turnCenter]; simp; ring
  rw [he, ← D2]
  -- |target·w| ≤ 2 r D
  have hdot : (target.x * wx + target.y * wy) ^ 2 ≤ (2 * r * D) ^ 2 := by
    have h1 : (target.x * wx + target.y * wy) ^ 2 ≤ (target.x ^ 2 + target.y ^ 2) * (wx ^ 2 + wy ^ 2) := by
      nlinarith [sq_nonneg (target.x * wy - target.y * wx)]
    have h2 : (target.x ^ 2 + target.y ^ 2) * (wx ^ 2 + wy ^ 2) ≤ D ^ 2 * (4 * r ^ 2) := by
      rw [D2]; exact mul_le_mul_of_nonneg_left hw hn
    nlinarith
  have hrD : 0 ≤ 2 * r * D := by positivity
  have hlo := (abs_le_of_sq_le_sq' hdot hrD).1
  have hhi := (abs_le_of_sq_le_sq' hdot hrD).2
  -- |target + w| ≥ |target·(target+w)| / D
  have hw0 : 0 ≤ wx ^ 2 + wy ^ 2 := by positivity
  have e2 : (target.x + wx) ^ 2 + (target.y + wy) ^ 2 =
      D ^ 2 + 2 * (target.x * wx + target.y * wy) + (wx ^ 2 + wy ^ 2) := by rw [D2]; ring
  have hlow : (D - 2 * r) ^ 2 ≤ (target.x + wx) ^ 2 + (target.y + wy) ^ 2 := by
    rcases hn.eq_or_lt with h0 | h0
    · have : D = 0 := by nlinarith
      have : r = 0 := by linarith
      subst this
      nlinarith [sq_nonneg (target.x + wx), sq_nonneg (target.y + wy)]
    · -- Cauchy-Schwarz with the norm of w
      set ρ := √(wx ^ 2 + wy ^ 2) with hρ
      have ρ0 : 0 ≤ ρ := Real.sqrt_nonneg _
      have ρ2 : ρ ^ 2 = wx ^ 2 + wy ^ 2 := Real.sq_sqrt hw0
      have ρr : ρ ≤ 2 * r := by
        apply le_of_sq_le_sq _ (by positivity)
        rw [ρ2]; nlinarith
      have hd3 : (target.x * wx + target.y * wy) ^ 2 ≤ (ρ * D) ^ 2 := by
        rw [mul_pow, ρ2, D2]
        nlinarith [sq_nonneg (target.x * wy - target.y * wx)]
      have := (abs_le_of_sq_le_sq' hd3 (by positivity)).1
      rw [e2, ← ρ2]
      nlinarith
  refine ⟨?_, ?_, ?_⟩
  · nlinarith
  · nlinarith
  · rw [e2]; nlinarith

/-- The centres used by the code. -/
noncomputable def startC (r : ℝ) (l : Bool) : Position2D := if l then ⟨0, r⟩ else ⟨0, -r⟩

/-- The centres used by the code. -/
noncomputable def endC (t : Pose2D) (r : ℝ) (l : Bool) : Position2D :=
  if l then ⟨t.x - Real.sin t.theta * r, t.y + Real.cos t.theta * r⟩
  else ⟨t.x + Real.sin t.theta * r, t.y - Real.cos t.theta * r⟩

theorem startC_eq (r : ℝ) (l : Bool) : turnCenter l r ⟨0, 0, 0⟩ = ((startC r l).x, (startC r l).y) := by
  cases l <;> simp [turnCenter, startC]

theorem endC_eq (t : Pose2D) (r : ℝ) (l : Bool) :
    turnCenter l r t = ((endC t r l).x, (endC t r l).y) := by
  cases l <;> simp [turnCenter, endC, mul_comm]

/-- One candidate of the code. -/
theorem cand (target : Pose2D) (r : ℝ) (hr : 0 ≤ r) (hpos : 0 < target.x ^ 2 + target.y ^ 2)
    (h4 : 4 * r ≤ √(target.x ^ 2 + target.y ^ 2)) (l1 l2 : Bool) :
    ∃ (p1 p2 : DubinsTangent) (c s len : ℝ),
      xComputeTangent (startC r l1) (endC target r l2) (if l1 then 1 else -1) r (l1 == l2) =
        .ok (p1, p2) ∧ c ^ 2 + s ^ 2 = 1 ∧ p2.x - p1.x = len * c ∧ p2.y - p1.y = len * s ∧
      IsDubinsPath target r l1 l2 p1.x p1.y p2.x p2.y (atan2 s c) len ∧
      candLen (p1, p2) = len ^ 2 := by
  obtain ⟨a1, a2, -⟩ := centers_apart target r hr h4 l1 l2
  have hd : centerDistSq target r l1 l2 = ((endC target r l2).x - (startC r l1).x) ^ 2 +
      ((endC target r l2).y - (startC r l1).y) ^ 2 := by
    unfold centerDistSq; rw [startC_eq, endC_eq]
  rw [hd] at a1 a2
  obtain ⟨p1, p2, c, s, len, he, hcs, hl, hx, hy, h1, h2⟩ :=
    tangent_spec (startC r l1) (endC target r l2) l1 (l1 == l2) r hr (by linarith) a2
  obtain ⟨e1, e2⟩ := exists_heading c s hcs
  refine ⟨p1, p2, c, s, len, he, hcs, by linarith, by linarith, ⟨?_, ?_, ?_, ?_, hl⟩, ?_⟩
  · rw [startC_eq]
    cases l1 <;> simp only [turnCenter, e1, e2, if_true, if_false, Bool.false_eq_true] at h1 ⊢ <;>
      rw [h1.1, h1.2]
  · rw [endC_eq target]
    cases l1 <;> cases l2 <;> simp [turnCenter, e1, e2] at h2 ⊢ <;> exact h2
  · rw [e1]; exact hx
  · rw [e2]; exact hy
  · unfold candLen
    simp only
    rw [hx, hy]; linear_combination len ^ 2 * hcs

/-- Unless the target is closer than four radii, the call returns three poses (for a
non-negative radius and a target at most 1e19 away). The first two are the ends of the
straight part of an arc-segment-arc path from the origin to the target; no other such
path has a shorter straight part; the last pose is the target. If the straight part is
not reduced to a point, the heading of the path is the `atan2` of the segment. The returned
headings are that value, or (depending on the turning side and on its sign) that value plus
twice the single precision PI. Missing for the full claim: negative radii, a target at the origin
and targets too far for a `float`, for which it fails (`C37_degenerate`, `C37_far`). -/
theorem C37_path_partial (target : Pose2D) (r : ℝ) (hr : 0 ≤ r) (hpos : 0 < target.x ^ 2 + target.y ^ 2)
    (h4 : 4 * r ≤ √(target.x ^ 2 + target.y ^ 2)) (hmax : target.x ^ 2 + target.y ^ 2 ≤ 10 ^ 38) :
    ∃ (s0 s1 : Pose2D) (l1 l2 : Bool) (phi len : ℝ),
      getDubinsSolutions target r = .ok [s0, s1, target] ∧
      IsDubinsPath target r l1 l2 s0.x s0.y s1.x s1.y phi len ∧
      (∀ l1' l2' x1 y1 x2 y2 phi' len', IsDubinsPath target r l1' l2' x1 y1 x2 y2 phi' len' →
        len ≤ len') ∧
      (0 < len → phi = atan2 (s1.y - s0.y) (s1.x - s0.x)) ∧
      s0.theta = atan2 (s1.y - s0.y) (s1.x - s0.x) +
        (if (l1 = true ∧ atan2 (s1.y - s0.y) (s1.x - s0.x) < 0) ∨
            (l1 = false ∧ 0 < atan2 (s1.y - s0.y) (s1.x - s0.x)) then 2 * piF else 0) ∧
      s1.theta = atan2 (s1.y - s0.y) (s1.x - s0.x) +
        (if (l2 = true ∧ target.theta < atan2 (s1.y - s0.y) (s1.x - s0.x)) ∨
            (l2 = false ∧ atan2 (s1.y - s0.y) (s1.x - s0.x) < target.theta)
          then 2 * piF else 0) := by
  have hsq : ¬ √(target.x * target.x + target.y * target.y) < 4 * r := by
    rw [show target.x * target.x + target.y * target.y = target.x ^ 2 + target.y ^ 2 by ring]
    exact not_lt.2 h4
  have K := cand target r hr hpos h4
  choose p1 p2 c s len he hcs hx hy hpath hlen using K
  have htan : xGetTangents (xGetCircles target r) r =
      .ok [({ p1 true true with isLeft := true }, { p2 true true with isLeft := true }),
       ({ p1 true false with isLeft := true }, { p2 true false with isLeft := false }),
       ({ p1 false true with isLeft := false }, { p2 false true with isLeft := true }),
       ({ p1 false false with isLeft := false }, { p2 false false with isLeft := false })] := by
    unfold xGetTangents xGetCircles
    have e1 := he true true
    have e2 := he true false
    have e3 := he false true
    have e4 := he false false
    simp only [startC, endC, if_true, if_false, Bool.false_eq_true, beq_self_eq_true] at e1 e4
    have b1 : (true == false) = false := rfl
    have b2 : (false == true) = false := rfl
    simp only [startC, endC, if_true, if_false, Bool.false_eq_true, b1, b2] at e2 e3
    dsimp only
    rw [e1, e2, e3, e4]
    rfl
  set ts := [(({ p1 true true with isLeft := true } : DubinsTangent),
        ({ p2 true true with isLeft := true } : DubinsTangent)),
       ({ p1 true false with isLeft := true }, { p2 true false with isLeft := false }),
       ({ p1 false true with isLeft := false }, { p2 false true with isLeft := true }),
       ({ p1 false false with isLeft := false }, { p2 false false with isLeft := false })] with hts
  have hmem : ∀ l1 l2, (({ p1 l1 l2 with isLeft := l1 } : DubinsTangent),
      ({ p2 l1 l2 with isLeft := l2 } : DubinsTangent)) ∈ ts := by
    intro l1 l2
    cases l1 <;> cases l2 <;> simp [hts]
  have hlen' : ∀ l1 l2, candLen (({ p1 l1 l2 with isLeft := l1 } : DubinsTangent),
      ({ p2 l1 l2 with isLeft := l2 } : DubinsTangent)) = len l1 l2 ^ 2 := hlen
  -- the selected candidate
  obtain ⟨l1, l2, hbest, hmin⟩ : ∃ l1 l2, xComputeBestTangent ts =
      ({ p1 l1 l2 with isLeft := l1 }, { p2 l1 l2 with isLeft := l2 }) ∧
      ∀ l1' l2', len l1 l2 ^ 2 ≤ len l1' l2' ^ 2 := by
    rcases bestLoop_spec ts fltMax ({}, {}) with ⟨-, h2⟩ | ⟨h1, -, h3⟩
    · exfalso
      have h5 := h2 _ (hmem true true)
      rw [hlen' true true, path_len (hpath true true)] at h5
      obtain ⟨-, -, h6⟩ := centers_apart target r hr h4 true true
      simp only [if_true, sub_zero] at h5
      have : fltMax ≤ 9 / 4 * 10 ^ 38 := by linarith
      unfold fltMax at this
      norm_num at this
    · have : ∃ l1 l2, bestLoop ts fltMax ({}, {}) =
          ({ p1 l1 l2 with isLeft := l1 }, { p2 l1 l2 with isLeft := l2 }) := by
        simp only [hts, List.mem_cons, List.not_mem_nil, or_false] at h1
        rcases h1 with h1 | h1 | h1 | h1
        · exact ⟨true, true, h1⟩
        · exact ⟨true, false, h1⟩
        · exact ⟨false, true, h1⟩
        · exact ⟨false, false, h1⟩
      obtain ⟨l1, l2, hb⟩ := this
      refine ⟨l1, l2, hb, fun l1' l2' => ?_⟩
      have := h3 _ (hmem l1' l2')
      rw [hb, hlen', hlen'] at this
      exact this
  have hl0 : 0 ≤ len l1 l2 := (hpath l1 l2).2.2.2.2
  set th := atan2 ((p2 l1 l2).y - (p1 l1 l2).y) ((p2 l1 l2).x - (p1 l1 l2).x) with hth
  have hsol : ∃ t0 t1 : ℝ, getDubinsSolutions target r =
      .ok [⟨(p1 l1 l2).x, (p1 l1 l2).y, t0⟩, ⟨(p2 l1 l2).x, (p2 l1 l2).y, t1⟩, target] ∧
      t0 = th + (if (l1 = true ∧ th < 0) ∨ (l1 = false ∧ 0 < th) then 2 * piF else 0) ∧
      t1 = th + (if (l2 = true ∧ target.theta < th) ∨ (l2 = false ∧ th < target.theta)
        then 2 * piF else 0) := by
    unfold getDubinsSolutions
    dsimp only
    rw [if_neg hsq, htan, Res.bind_ok, hbest]
    dsimp only
    rw [← hth]
    have e : 2 * piF - (target.theta - th) + target.theta = th + 2 * piF := by ring
    have e' : 2 * piF + th = th + 2 * piF := by ring
    rw [e, e']
    clear_value th
    have s1 : target.theta - th < 0 ↔ target.theta < th := sub_neg
    have s2 : target.theta - th > 0 ↔ th < target.theta := sub_pos
    simp only [s1, s2, gt_iff_lt]
    refine ⟨_, _, ?_, rfl, rfl⟩
    cases l1 <;> cases l2 <;> simp only [Bool.false_eq_true, false_and, true_and,
      not_true_eq_false, not_false_eq_true, if_false, or_false, false_or, Bool.true_eq_false] <;>
      split_ifs <;> simp
  obtain ⟨t0, t1, hs, h0, h1⟩ := hsol
  refine ⟨_, _, l1, l2, atan2 (s l1 l2) (c l1 l2), len l1 l2, hs, hpath l1 l2, ?_, ?_, h0, h1⟩
  · intro l1' l2' x1 y1 x2 y2 phi' len' hp
    have e1 := path_len hp
    have e2 := path_len (hpath l1' l2')
    have := hmin l1' l2'
    rw [e2, ← e1] at this
    exact le_of_sq_le_sq this hp.2.2.2.2
  · intro hl
    dsimp only
    rw [hx, hy, atan2_scale _ _ _ hl]

example : 0 ≤ (1 : ℝ) ∧ 0 < (5 : ℝ) ^ 2 + 0 ^ 2 ∧ 4 * (1 : ℝ) ≤ √(5 ^ 2 + 0 ^ 2) ∧
    (5 : ℝ) ^ 2 + 0 ^ 2 ≤ 10 ^ 38 := by
  refine ⟨by norm_num, by norm_num, ?_, by norm_num⟩
  rw [show (5 : ℝ) ^ 2 + 0 ^ 2 = 5 ^ 2 by norm_num, Real.sqrt_sq (by norm_num)]; norm_num

theorem tangent_not_throws (c1 c2 : Position2D) (s : ℤ) (r : ℝ) (b : Bool) :
    xComputeTangent c1 c2 s r b ≠ .throws := by
  unfold xComputeTangent
  dsimp only
  split_ifs <;> simp

/-- The call throws exactly if the target is closer than four radii. -/
theorem C37_throws (target : Pose2D) (r : ℝ) :
    getDubinsSolutions target r = .throws ↔ √(target.x ^ 2 + target.y ^ 2) < 4 * r := by
  rw [show target.x ^ 2 + target.y ^ 2 = target.x * target.x + target.y * target.y by ring]
  unfold getDubinsSolutions
  dsimp only
  split_ifs with h
  · simp [h]
  · simp only [h, iff_false]
    intro hn
    unfold xGetTangents at hn
    dsimp only at hn
    have N := tangent_not_throws
    cases e1 : xComputeTangent (xGetCircles target r).c0 (xGetCircles target r).c2 1 r true with
    | throws => exact N _ _ _ _ _ e1
    | ub => rw [e1] at hn; cases hn
    | ok t1 =>
    cases e2 : xComputeTangent (xGetCircles target r).c0 (xGetCircles target r).c3 1 r false with
    | throws => exact N _ _ _ _ _ e2
    | ub => rw [e1, e2] at hn; cases hn
    | ok t2 =>
    cases e3 : xComputeTangent (xGetCircles target r).c1 (xGetCircles target r).c2 (-1) r false with
    | throws => exact N _ _ _ _ _ e3
    | ub => rw [e1, e2, e3] at hn; cases hn
    | ok t3 =>
    cases e4 : xComputeTangent (xGetCircles target r).c1 (xGetCircles target r).c3 (-1) r true with
    | throws => exact N _ _ _ _ _ e4
    | ub => rw [e1, e2, e3, e4] at hn; cases hn
    | ok t4 =>
    rw [e1, e2, e3, e4] at hn
    cases hn

/-- When the straight part is reduced to a point the returned heading is zero whatever
the heading of the path: to go from `(0, 0, 0)` to `(0, 4, 0)` with radius 1 one turns left
by half a turn, then right by half a turn, so the heading at the middle point is pi. -/
theorem C37_zero_length_heading : ∃ s0 s1 : Pose2D,
    getDubinsSolutions ⟨0, 4, 0⟩ 1 = .ok [s0, s1, ⟨0, 4, 0⟩] ∧
    s0 = ⟨0, 2, 0⟩ ∧ IsDubinsPath ⟨0, 4, 0⟩ 1 true false 0 2 0 2 Real.pi 0 ∧
    ¬ ∃ l1 l2 len, IsDubinsPath ⟨0, 4, 0⟩ 1 l1 l2 s0.x s0.y s1.x s1.y s0.theta len := by
  have hq : √((0 : ℝ) ^ 2 + 4 ^ 2) = 4 := by
    rw [show (0 : ℝ) ^ 2 + 4 ^ 2 = 4 ^ 2 by norm_num, Real.sqrt_sq (by norm_num)]
  have htrue : IsDubinsPath ⟨0, 4, 0⟩ 1 true false 0 2 0 2 Real.pi 0 := by
    refine ⟨?_, ?_, ?_, ?_, le_refl _⟩ <;> norm_num [turnCenter]
  obtain ⟨s0, s1, l1, l2, phi, len, he, hp, hmin, -, ht, -⟩ := C37_path_partial ⟨0, 4, 0⟩ 1 (by norm_num)
    (by norm_num) (by simp only; rw [hq]; norm_num) (by norm_num)
  have hl0 : len = 0 := le_antisymm (hmin _ _ _ _ _ _ _ _ htrue) hp.2.2.2.2
  subst hl0
  have hlen := path_len hp
  have hl1 : l1 = true ∧ l2 = false := by
    cases l1 <;> cases l2 <;>
      first | exact ⟨rfl, rfl⟩ | (exfalso; norm_num [centerDistSq, turnCenter] at hlen)
  obtain ⟨rfl, rfl⟩ := hl1
  obtain ⟨q1, q2, q3, q4, -⟩ := hp
  simp only [zero_mul, add_zero] at q3 q4
  norm_num [turnCenter] at q1 q2
  have hx : s0.x = 0 := by linarith [q1.1, q2.1]
  have hy : s0.y = 2 := by linarith [q1.2, q2.2]
  have h0 : s0 = ⟨0, 2, 0⟩ := by
    ext
    · exact hx
    · exact hy
    · rw [ht, q3, q4]
      norm_num [atan2, show ({ re := 0, im := 0 } : ℂ) = 0 from rfl]
  refine ⟨s0, s1, he, h0, htrue, ?_⟩
  rintro ⟨m1, m2, len, g1, g2, g3, g4, -⟩
  rw [h0] at g1
  cases m1 <;> norm_num [turnCenter] at g1

/-- With a radius of zero and the target at the origin, and with a negative radius, the call may
divide by zero. -/
theorem C37_degenerate (th r : ℝ) (hr : r ≤ 0) :
    getDubinsSolutions ⟨0, 0, 0⟩ r = .ub ∧ getDubinsSolutions ⟨0, 0, th⟩ 0 = .ub := by
  constructor
  · unfold getDubinsSolutions
    dsimp only
    rw [if_neg (by simpa using hr)]
    simp [xGetTangents, xGetCircles, xComputeTangent]
  · simp [getDubinsSolutions, xGetTangents, xGetCircles, xComputeTangent]

/-- For a target 1e20 straight ahead, the squared lengths of the straight parts are above the largest
`float`: no tangent is selected and the first two poses returned are the origin. -/
theorem C37_far : getDubinsSolutions ⟨10 ^ 20, 0, 0⟩ 1 =
    .ok [⟨0, 0, 0⟩, ⟨0, 0, 0⟩, ⟨10 ^ 20, 0, 0⟩] := by
  have hs : √(((10 : ℝ) ^ 20) ^ 2 + 0 ^ 2) = 10 ^ 20 := by
    rw [show ((10 : ℝ) ^ 20) ^ 2 + 0 ^ 2 = (10 ^ 20) ^ 2 by ring, Real.sqrt_sq (by positivity)]
  have h4 : 4 * (1 : ℝ) ≤ √(((10 : ℝ) ^ 20) ^ 2 + 0 ^ 2) := by rw [hs]; norm_num
  have h4' : ¬ √((10 : ℝ) ^ 20 * 10 ^ 20 + 0 * 0) < 4 * 1 := by
    rw [show (10 : ℝ) ^ 20 * 10 ^ 20 + 0 * 0 = (10 ^ 20) ^ 2 + 0 ^ 2 by ring]
    exact not_lt.2 h4
  have K := cand ⟨10 ^ 20, 0, 0⟩ 1 (by norm_num) (by positivity) h4
  choose p1 p2 c s len he hcs hx hy hpath hlen using K
  have htan : xGetTangents (xGetCircles ⟨10 ^ 20, 0, 0⟩ 1) 1 =
      .ok [({ p1 true true with isLeft := true }, { p2 true true with isLeft := true }),
       ({ p1 true false with isLeft := true }, { p2 true false with isLeft := false }),
       ({ p1 false true with isLeft := false }, { p2 false true with isLeft := true }),
       ({ p1 false false with isLeft := false }, { p2 false false with isLeft := false })] := by
    unfold xGetTangents xGetCircles
    have e1 := he true true
    have e2 := he true false
    have e3 := he false true
    have e4 := he false false
    simp only [startC, endC, if_true, if_false, Bool.false_eq_true, beq_self_eq_true] at e1 e4
    have b1 : (true == false) = false := rfl
    have b2 : (false == true) = false := rfl
    simp only [startC, endC, if_true, if_false, Bool.false_eq_true, b1, b2] at e2 e3
    dsimp only
    rw [e1, e2, e3, e4]
    rfl
  have hbig : ∀ l1 l2, fltMax ≤ len l1 l2 ^ 2 := by
    intro l1 l2
    rw [path_len (hpath l1 l2)]
    cases l1 <;> cases l2 <;> norm_num [centerDistSq, turnCenter, fltMax]
  have hlen' : ∀ l1 l2, candLen (({ p1 l1 l2 with isLeft := l1 } : DubinsTangent),
      ({ p2 l1 l2 with isLeft := l2 } : DubinsTangent)) = len l1 l2 ^ 2 := hlen
  unfold getDubinsSolutions
  dsimp only
  rw [if_neg h4', htan, Res.bind_ok]
  have hbest : xComputeBestTangent
      [({ p1 true true with isLeft := true }, { p2 true true with isLeft := true }),
       ({ p1 true false with isLeft := true }, { p2 true false with isLeft := false }),
       ({ p1 false true with isLeft := false }, { p2 false true with isLeft := true }),
       ({ p1 false false with isLeft := false }, { p2 false false with isLeft := false })] =
      ({}, {}) := by
    rcases bestLoop_spec [({ p1 true true with isLeft := true }, { p2 true true with isLeft := true }),
       ({ p1 true false with isLeft := true }, { p2 true false with isLeft := false }),
       ({ p1 false true with isLeft := false }, { p2 false true with isLeft := true }),
       ({ p1 false false with isLeft := false }, { p2 false false with isLeft := false })]
       fltMax ({}, {}) with ⟨h, -⟩ | ⟨h1, h2, -⟩
    · exact h
    · exfalso
      simp only [List.mem_cons, List.not_mem_nil, or_false] at h1
      rcases h1 with h1 | h1 | h1 | h1 <;> rw [h1, hlen'] at h2 <;> exact absurd h2 (not_lt.2 (hbig _ _))
  rw [hbest]
  simp [atan2, show ({ re := 0, im := 0 } : ℂ) = 0 from rfl]

/-- For a left turn at the start the returned heading is not negative, as a turn to the
left requires; for a right turn at the end, the turn to the target's heading is not to the
left, if the target's heading is in the range of `atan2`. -/
theorem C37_turn_side (target : Pose2D) (r : ℝ) (hr : 0 ≤ r)
    (hpos : 0 < target.x ^ 2 + target.y ^ 2)
    (h4 : 4 * r ≤ √(target.x ^ 2 + target.y ^ 2)) (hmax : target.x ^ 2 + target.y ^ 2 ≤ 10 ^ 38)
    (ht : target.theta ≤ Real.pi) :
    ∃ (s0 s1 : Pose2D) (l1 l2 : Bool) (phi len : ℝ),
      getDubinsSolutions target r = .ok [s0, s1, target] ∧
      IsDubinsPath target r l1 l2 s0.x s0.y s1.x s1.y phi len ∧
      (l1 = true → 0 ≤ s0.theta) ∧ (l2 = false → target.theta ≤ s1.theta) := by
  obtain ⟨s0, s1, l1, l2, phi, len, he, hp, -, -, t0, t1⟩ := C37_path_partial target r hr hpos h4 hmax
  obtain ⟨a1, a2⟩ := atan2_mem (s1.y - s0.y) (s1.x - s0.x)
  have hpi := pi_le_piF
  refine ⟨s0, s1, l1, l2, phi, len, he, hp, ?_, ?_⟩
  · rintro rfl
    rw [t0]
    by_cases h : atan2 (s1.y - s0.y) (s1.x - s0.x) < 0
    · rw [if_pos (Or.inl ⟨rfl, h⟩)]; linarith
    · rw [if_neg (by simpa using h)]; linarith
  · rintro rfl
    rw [t1]
    by_cases h : atan2 (s1.y - s0.y) (s1.x - s0.x) < target.theta
    · rw [if_pos (Or.inr ⟨rfl, h⟩)]; linarith
    · rw [if_neg (by simpa using h)]; linarith

example : (0.5 : ℝ) ≤ Real.pi := by have := Real.pi_gt_three; norm_num; linarith

end AlMath
