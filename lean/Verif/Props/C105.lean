import Verif.Lemmas.FloatDubins
import Verif.Spec.Libm
import Verif.Props.C37
import Verif.Props.C85
import Verif.Props.C89

/-!
C105: Dubins solutions in single precision. The two first poses are within rounding of an arc, segment, arc path to a target
within rounding of the given one.
-/

namespace AlMath.F32

open AlMath.Spec

namespace Spec

/-- Targets up to a thousand kilometres away and radii between a millimetre and a kilometre, all of them floats. Not in /repo:
specification. -/
structure DubinsInput (t : AlMath.Pose2D) (r : ℝ) : Prop where
  repX : Rep t.x
  repY : Rep t.y
  repTheta : Rep t.theta
  repR : Rep r
  lo : 1 / 1024 ≤ r
  hi : r ≤ 1024
  farX : |t.x| ≤ 1048576
  farY : |t.y| ≤ 1048576

/-- Distance of the target. Not in /repo: specification. -/
noncomputable def reach (t : AlMath.Pose2D) : ℝ := √(t.x ^ 2 + t.y ^ 2)

/-- The call of the code on exact numbers that are floats. Not in /repo: specification. -/
noncomputable def dubins (m : Libm) (t : AlMath.Pose2D) (r : ℝ) : Res (List Pose2D) :=
  getDubinsSolutions m ⟨fin t.x, fin t.y, fin t.theta⟩ (fin r)

end Spec

open Spec

/-! ### The check of the distance -/

theorem reach_nonneg (t : AlMath.Pose2D) : 0 ≤ reach t := Real.sqrt_nonneg _

theorem reach_sq (t : AlMath.Pose2D) : reach t ^ 2 = t.x ^ 2 + t.y ^ 2 := Real.sq_sqrt (by positivity)

theorem reach_le {t : AlMath.Pose2D} {r : ℝ} (h : DubinsInput t r) : reach t ≤ 1500000 := by
  refine Real.sqrt_le_iff.2 ⟨by norm_num, ?_⟩
  have h1 := sq_le_sq' (abs_le.1 h.farX).1 (abs_le.1 h.farX).2
  have h2 := sq_le_sq' (abs_le.1 h.farY).1 (abs_le.1 h.farY).2
  norm_num at *
  linarith

theorem abs_le_reach (t : AlMath.Pose2D) : |t.x| ≤ reach t ∧ |t.y| ≤ reach t :=
  ⟨Real.abs_le_sqrt (by nlinarith [sq_nonneg t.y]), Real.abs_le_sqrt (by nlinarith [sq_nonneg t.x])⟩

/-- A short distance is computed to be short. -/
theorem hypot_small {a b : ℝ} (h : a ^ 2 + b ^ 2 ≤ 1 / 1048576) :
    ∃ d, sqrt (add (mul (fin a) (fin a)) (mul (fin b) (fin b))) = fin d ∧ d ≤ 1 / 512 := by
  have a0 := mul_self_nonneg a
  have b0 := mul_self_nonneg b
  have g : ∀ k : ℕ, k ≤ 100 → Rep (1 / 2 ^ k) := fun k hk => by
    have := Rep.two_zpow (e := -(k : ℤ)) (by omega) (by omega)
    rwa [zpow_neg, zpow_natCast, ← one_div] at this
  have g20 : Rep (1 / 1048576) := by have := g 20 (by norm_num); norm_num at this ⊢; exact this
  have g19 : Rep (1 / 524288) := by have := g 19 (by norm_num); norm_num at this ⊢; exact this
  have g9 : Rep (1 / 512) := by have := g 9 (by norm_num); norm_num at this ⊢; exact this
  have n1 : 0 ≤ rnd (a * a) := le_rnd_of_le Rep.zero.grid a0
  have n2 : 0 ≤ rnd (b * b) := le_rnd_of_le Rep.zero.grid b0
  have l1 : rnd (a * a) ≤ 1 / 1048576 := rnd_le_of_le g20.grid (by nlinarith)
  have l2 : rnd (b * b) ≤ 1 / 1048576 := rnd_le_of_le g20.grid (by nlinarith)
  have big : (1 : ℝ) ≤ 2 ^ 127 := by norm_num
  rw [mul_fin (by rw [abs_of_nonneg a0]; nlinarith), mul_fin (by rw [abs_of_nonneg b0]; nlinarith)]
  generalize rnd (a * a) = p at *
  generalize rnd (b * b) = q at *
  have n3 : 0 ≤ rnd (p + q) := le_rnd_of_le Rep.zero.grid (by linarith)
  have l3 : rnd (p + q) ≤ 1 / 524288 := rnd_le_of_le g19.grid (by linarith)
  rw [add_fin (by rw [abs_of_nonneg (by linarith)]; linarith)]
  generalize rnd (p + q) = s at *
  have l4 : √s ≤ 1 / 512 := Real.sqrt_le_iff.2 ⟨by norm_num, by linarith⟩
  refine ⟨rnd (√s), ?_, rnd_le_of_le g9.grid l4⟩
  rw [sqrt, if_neg (not_lt.2 n3), round_fin (by rw [abs_of_nonneg (Real.sqrt_nonneg _)]; linarith)]

/-- The check of the distance, in the code and without rounding. -/
theorem gate (m : Libm) {t : AlMath.Pose2D} {r : ℝ} (h : DubinsInput t r) :
    (dubins m t r = .throws ∧ reach t < 4 * r * (1 + 2.2 / 16777216)) ∨
    (4 * r * (1 - 2.2 / 16777216) ≤ reach t ∧ dubins m t r =
      (let best := xComputeBestTangent (xGetTangents (xGetCircles m ⟨fin t.x, fin t.y, fin t.theta⟩ (fin r)) (fin r))
       let theta := m.atan2 (sub best.2.y best.1.y) (sub best.2.x best.1.x)
       .ok [⟨best.1.x, best.1.y, dubinsHeading1 best.1.isLeft theta⟩,
         ⟨best.2.x, best.2.y, dubinsHeading2 best.2.isLeft theta (fin t.theta)⟩, ⟨fin t.x, fin t.y, fin t.theta⟩])) := by
  have rp : 0 < r := by linarith [h.lo]
  have e4 : mul (fin 4) (fin r) = fin (4 * r) := by
    rw [mul, round_rep]
    obtain ⟨m, e, k1, k2, k3⟩ := h.repR.grid
    refine grid_rep ⟨m, e + 2, k1, by omega, ?_⟩ ?_
    · rw [k3, zpow_add₀ two_ne_zero]; norm_num; ring
    · rw [abs_of_pos (by linarith)]; norm_num; linarith [h.hi]
  have key : ∀ d, sqrt (add (mul (fin t.x) (fin t.x)) (mul (fin t.y) (fin t.y))) = fin d →
      (d < 4 * r → reach t < 4 * r * (1 + 2.2 / 16777216)) → (4 * r ≤ d → 4 * r * (1 - 2.2 / 16777216) ≤ reach t) →
      (dubins m t r = .throws ∧ reach t < 4 * r * (1 + 2.2 / 16777216)) ∨
      (4 * r * (1 - 2.2 / 16777216) ≤ reach t ∧ dubins m t r =
        (let best := xComputeBestTangent (xGetTangents (xGetCircles m ⟨fin t.x, fin t.y, fin t.theta⟩ (fin r)) (fin r))
         let theta := m.atan2 (sub best.2.y best.1.y) (sub best.2.x best.1.x)
         .ok [⟨best.1.x, best.1.y, dubinsHeading1 best.1.isLeft theta⟩,
           ⟨best.2.x, best.2.y, dubinsHeading2 best.2.isLeft theta (fin t.theta)⟩, ⟨fin t.x, fin t.y, fin t.theta⟩])) := by
    intro d hd h1 h2
    rcases lt_or_ge d (4 * r) with hlt | hge
    · left
      refine ⟨?_, h1 hlt⟩
      unfold dubins getDubinsSolutions
      dsimp only
      rw [if_pos (by rw [hd, e4]; exact hlt)]
    · right
      refine ⟨h2 hge, ?_⟩
      unfold dubins getDubinsSolutions
      dsimp only
      rw [if_neg (by rw [hd, e4]; exact not_lt.2 hge)]
  rcases le_or_gt (1 / 1024) (reach t) with hT | hT
  · obtain ⟨d, d1, -, d3⟩ := hypot_fin (a := t.x) (b := t.y) (ρ := reach t) (by rw [reach_sq]; ring) hT
      ((reach_le h).trans (by norm_num))
    refine key d d1 ?_ ?_
    · intro hd
      have := (abs_le.1 d3).1
      norm_num at *
      linarith
    · intro hd
      have := (abs_le.1 d3).2
      norm_num at *
      linarith
  · have r0 := reach_nonneg t
    obtain ⟨d, d1, d2⟩ := hypot_small (a := t.x) (b := t.y) (by rw [← reach_sq]; nlinarith)
    refine key d d1 ?_ ?_
    · intro hd
      have := h.lo
      norm_num at *
      linarith
    · intro hd
      have := h.lo
      norm_num at *
      linarith

/-- The call throws if the target is closer than four radii, and only then, up to rounding. -/
theorem C105_throws (m : Libm) {t : AlMath.Pose2D} {r : ℝ} (h : DubinsInput t r) :
    (dubins m t r = .throws → reach t < 4 * r * (1 + 2.2 / 16777216)) ∧
    (reach t < 4 * r * (1 - 2.2 / 16777216) → dubins m t r = .throws) := by
  rcases gate m h with ⟨h1, h2⟩ | ⟨h1, h2⟩
  · exact ⟨fun _ => h2, fun _ => h1⟩
  · refine ⟨fun h3 => ?_, fun h3 => absurd h3 (not_lt.2 h1)⟩
    rw [h2] at h3
    exact absurd h3 (by simp)

theorem near_input : DubinsInput ⟨3, 2, 1⟩ 1 ∧ DubinsInput ⟨10, 2, 1⟩ 1 := by
  have i : ∀ n : ℤ, |n| < 2 ^ 24 → Rep n := fun n hn => ⟨n, 0, by exact_mod_cast hn, by norm_num, by norm_num, by norm_num⟩
  have i1 : Rep 1 := by exact_mod_cast i 1 (by norm_num)
  have i2 : Rep 2 := by exact_mod_cast i 2 (by norm_num)
  have i3 : Rep 3 := by exact_mod_cast i 3 (by norm_num)
  have i10 : Rep 10 := by exact_mod_cast i 10 (by norm_num)
  constructor <;> constructor <;> first | assumption | norm_num

/-- A target that is too close. -/
example : dubins Libm.rounded ⟨3, 2, 1⟩ 1 = .throws := by
  refine (C105_throws Libm.rounded near_input.1).2 ?_
  unfold reach
  rw [Real.sqrt_lt' (by norm_num)]
  norm_num

theorem near_passes (m : Libm) : dubins m ⟨10, 2, 1⟩ 1 ≠ .throws := by
  intro h
  have := (C105_throws m near_input.2).1 h
  unfold reach at this
  rw [Real.sqrt_lt' (by norm_num)] at this
  norm_num at this

/-! ### The circles -/

/-- The start circles of the code. Helper of the proofs. Not in /repo: specification. -/
noncomputable def startF (r : ℝ) (l : Bool) : Position2D := if l then ⟨fin 0, fin r⟩ else ⟨fin 0, neg (fin r)⟩

/-- The end circles of the code. Helper of the proofs. Not in /repo: specification. -/
noncomputable def endF (m : Libm) (t : AlMath.Pose2D) (r : ℝ) (l : Bool) : Position2D :=
  if l then ⟨sub (fin t.x) (mul (m.sin (fin t.theta)) (fin r)), add (fin t.y) (mul (m.cos (fin t.theta)) (fin r))⟩
  else ⟨add (fin t.x) (mul (m.sin (fin t.theta)) (fin r)), sub (fin t.y) (mul (m.cos (fin t.theta)) (fin r))⟩

/-- A candidate of the code. Helper of the proofs. Not in /repo: specification. -/
noncomputable def candF (m : Libm) (t : AlMath.Pose2D) (r : ℝ) (l1 l2 : Bool) : DubinsTangent × DubinsTangent :=
  let c := xComputeTangent (startF r l1) (endF m t r l2) (if l1 then 1 else -1) (fin r) (l1 == l2)
  ({ c.1 with isLeft := l1 }, { c.2 with isLeft := l2 })

theorem tangents_eq (m : Libm) (t : AlMath.Pose2D) (r : ℝ) :
    xGetTangents (xGetCircles m ⟨fin t.x, fin t.y, fin t.theta⟩ (fin r)) (fin r) =
      [candF m t r true true, candF m t r true false, candF m t r false true, candF m t r false false] := rfl

/-- One coordinate of an end circle. -/
theorem centre_coord {x s S r T : ℝ} (hr : 1 / 1024 ≤ r) (hr' : r ≤ 1024) (hx : |x| ≤ T) (hT : T ≤ 1500000)
    (h4 : 4 * r * (1 - 2.2 / 16777216) ≤ T) (hs : |s - S| ≤ 2 ^ (-23 : ℤ)) (hS : |S| ≤ 1) :
    (∃ P, add (fin x) (mul (fin s) (fin r)) = fin P ∧ |P - (x + r * S)| ≤ 2.1 / 16777216 * T) ∧
    (∃ P, sub (fin x) (mul (fin s) (fin r)) = fin P ∧ |P - (x - r * S)| ≤ 2.1 / 16777216 * T) := by
  have e23 : (2 : ℝ) ^ (-23 : ℤ) = 2 / 16777216 := by norm_num
  rw [e23] at hs
  have h1 : |s * r - r * S| ≤ 2 / 16777216 * r := by
    rw [mul_comm r S, ← sub_mul, abs_mul, abs_of_pos (by linarith : 0 < r)]
    exact mul_le_mul_of_nonneg_right hs (by linarith)
  have h2 : |r * S| ≤ r := by
    rw [abs_mul, abs_of_pos (by linarith)]
    nlinarith [abs_nonneg S]
  have h3 := rnd_bnd (s * r)
  have h5 := le_of_err h1
  have m1 : |s * r| ≤ 2 ^ 127 := by norm_num at *; linarith
  rw [mul_fin m1]
  generalize s * r = z at *
  generalize rnd z = w at *
  have h6 : |w - r * S| ≤ 3.01 / 16777216 * r := by
    have := abs_add_le (w - z) (z - r * S)
    rw [sub_add_sub_cancel] at this
    clear m1 e23
    generalize r * S = y at *
    norm_num at *
    linarith
  have h7 := le_of_err h6
  have G : ∀ {w y : ℝ}, |w - y| ≤ 3.01 / 16777216 * r → |w| ≤ r + 3.01 / 16777216 * r → |x + w| ≤ 2 ^ 127 ∧
      |rnd (x + w) - (x + y)| ≤ 2.1 / 16777216 * T := by
    intro w y k1 k2
    have k3 := abs_add_le x w
    have k4 := rnd_bnd (x + w)
    refine ⟨by norm_num at *; linarith, ?_⟩
    have e : rnd (x + w) - (x + y) = (rnd (x + w) - (x + w)) + (w - y) := by ring
    rw [e]
    refine (abs_add_le _ _).trans ?_
    generalize |rnd (x + w) - (x + w)| = z at *
    generalize |x + w| = z' at *
    generalize |w - y| = z'' at *
    clear h1 h2 h3 h5 h6 h7 m1 e23 hs hS
    norm_num at *
    linarith
  constructor
  · obtain ⟨g1, g2⟩ := G h6 (by linarith)
    exact ⟨_, add_fin g1, g2⟩
  · obtain ⟨g1, g2⟩ := G (w := -w) (y := -(r * S)) (by rwa [← neg_sub', abs_neg]) (by rw [abs_neg]; linarith)
    exact ⟨_, by rw [sub, neg]; exact add_fin g1, by rw [sub_eq_add_neg]; exact g2⟩

theorem endF_fin (m : Libm) (hm : m.Accurate) {t : AlMath.Pose2D} {r : ℝ} (h : DubinsInput t r)
    (h4 : 4 * r * (1 - 2.2 / 16777216) ≤ reach t) (l : Bool) :
    ∃ P Q, endF m t r l = ⟨fin P, fin Q⟩ ∧ |P - (turnCenter l r t).1| ≤ 2.1 / 16777216 * reach t ∧
      |Q - (turnCenter l r t).2| ≤ 2.1 / 16777216 * reach t := by
  obtain ⟨s, s1, -, s3⟩ := hm.sin t.theta h.repTheta
  obtain ⟨c, c1, -, c3⟩ := hm.cos t.theta h.repTheta
  obtain ⟨hx, hy⟩ := abs_le_reach t
  obtain ⟨⟨P1, a1, b1⟩, ⟨P2, a2, b2⟩⟩ := centre_coord h.lo h.hi hx (reach_le h) h4 s3 (Real.abs_sin_le_one _)
  obtain ⟨⟨Q1, a3, b3⟩, ⟨Q2, a4, b4⟩⟩ := centre_coord h.lo h.hi hy (reach_le h) h4 c3 (Real.abs_cos_le_one _)
  unfold endF turnCenter
  rw [s1, c1]
  cases l with
  | true => exact ⟨P2, Q1, by rw [if_pos rfl, a2, a3], by simpa using b2, by simpa using b3⟩
  | false => exact ⟨P1, Q2, by simp [a1, a4], by simpa using b1, by simpa using b4⟩

/-! ### Distances of centres -/

theorem norm_mk (x y : ℝ) : ‖(⟨x, y⟩ : ℂ)‖ = √(x ^ 2 + y ^ 2) := by
  rw [Complex.norm_def, Complex.normSq_mk, sq, sq]

theorem norm_box {x y e : ℝ} (hx : |x| ≤ e) (hy : |y| ≤ e) : ‖(⟨x, y⟩ : ℂ)‖ ≤ 1.4143 * e := by
  rw [norm_mk]
  have e0 : 0 ≤ e := (abs_nonneg x).trans hx
  refine Real.sqrt_le_iff.2 ⟨by linarith, ?_⟩
  have := sq_le_sq' (abs_le.1 hx).1 (abs_le.1 hx).2
  have := sq_le_sq' (abs_le.1 hy).1 (abs_le.1 hy).2
  nlinarith [sq_nonneg e]

/-- The exact vector from the centre of the first circle to the centre of the second one. Helper of the proofs. Not in /repo:
specification. -/
noncomputable def gapVec (t : AlMath.Pose2D) (r : ℝ) (l1 l2 : Bool) : ℂ :=
  ⟨(turnCenter l2 r t).1 - (turnCenter l1 r ⟨0, 0, 0⟩).1, (turnCenter l2 r t).2 - (turnCenter l1 r ⟨0, 0, 0⟩).2⟩

theorem gapVec_sq (t : AlMath.Pose2D) (r : ℝ) (l1 l2 : Bool) : ‖gapVec t r l1 l2‖ ^ 2 = centerDistSq t r l1 l2 := by
  rw [gapVec, norm_mk, Real.sq_sqrt (by positivity), centerDistSq]

theorem gapVec_bnd (t : AlMath.Pose2D) {r : ℝ} (hr : 0 ≤ r) (l1 l2 : Bool) :
    reach t - 2 * r ≤ ‖gapVec t r l1 l2‖ ∧ ‖gapVec t r l1 l2‖ ≤ reach t + 2 * r := by
  have hT : ‖(⟨t.x, t.y⟩ : ℂ)‖ = reach t := norm_mk _ _
  have hw : ‖gapVec t r l1 l2 - ⟨t.x, t.y⟩‖ ≤ 2 * r := by
    have hcs := Real.sin_sq_add_cos_sq t.theta
    have hc1 := Real.cos_le_one t.theta
    have hc2 := Real.neg_one_le_cos t.theta
    have hr2 := sq_nonneg r
    have : ∀ z : ℂ, z.re ^ 2 + z.im ^ 2 ≤ (2 * r) ^ 2 → ‖z‖ ≤ 2 * r := by
      intro z hz
      rw [show z = ⟨z.re, z.im⟩ from rfl, norm_mk]
      exact Real.sqrt_le_iff.2 ⟨by linarith, hz⟩
    refine this _ ?_
    cases l1 <;> cases l2 <;> simp [gapVec, turnCenter] <;> nlinarith
  have h1 := norm_sub_norm_le (⟨t.x, t.y⟩ : ℂ) (gapVec t r l1 l2)
  have h2 := norm_sub_norm_le (gapVec t r l1 l2) (⟨t.x, t.y⟩ : ℂ)
  rw [norm_sub_rev] at h1
  rw [hT] at h1 h2
  constructor <;> linarith

/-! ### The candidates -/

/-- What is known of a candidate: its points, and an exact path whose points and target are close. Helper of the proofs. Not in
/repo: specification. -/
structure CandNear (t : AlMath.Pose2D) (r : ℝ) (l1 l2 : Bool) (x1 y1 x2 y2 : ℝ) (t' : AlMath.Pose2D) (X1 Y1 X2 Y2 phi len : ℝ) :
    Prop where
  path : IsDubinsPath t' r l1 l2 X1 Y1 X2 Y2 phi len
  heading : t'.theta = t.theta
  tx : |t'.x - t.x| ≤ 7 / 16777216 * reach t
  ty : |t'.y - t.y| ≤ 7 / 16777216 * reach t
  x1 : |x1 - X1| ≤ 12 / 16777216 * r
  y1 : |y1 - Y1| ≤ 12 / 16777216 * r
  x2 : |x2 - X2| ≤ 9 / 16777216 * reach t
  y2 : |y2 - Y2| ≤ 9 / 16777216 * reach t

/-- From the tangent of two circles to a path. -/
theorem cand_near {t : AlMath.Pose2D} {r : ℝ} (h : DubinsInput t r) (h4 : 4 * r * (1 - 2.2 / 16777216) ≤ reach t) (l1 l2 : Bool)
    {P Q ρ x1 y1 x2 y2 nx ny len : ℝ} (hP : |P - (turnCenter l2 r t).1| ≤ 2.1 / 16777216 * reach t)
    (hQ : |Q - (turnCenter l2 r t).2| ≤ 2.1 / 16777216 * reach t) (bP : |P| ≤ 1.251 * reach t) (bQ : |Q| ≤ 1.251 * reach t)
    (hρ : ρ ≤ 1.501 * reach t)
    (H : TangentNear l1 (l1 == l2) r (turnCenter l1 r ⟨0, 0, 0⟩).1 (turnCenter l1 r ⟨0, 0, 0⟩).2 P Q ρ x1 y1 x2 y2 nx ny len) :
    ∃ t' X1 Y1 X2 Y2 phi, CandNear t r l1 l2 x1 y1 x2 y2 t' X1 Y1 X2 Y2 phi len := by
  set p := (turnCenter l1 r ⟨0, 0, 0⟩).1 with hp
  set q := (turnCenter l1 r ⟨0, 0, 0⟩).2 with hq
  set σ : ℝ := if l1 then 1 else -1 with hσ
  have σ2 : σ ^ 2 = 1 := by rw [hσ]; split_ifs <;> norm_num
  obtain ⟨ec, es⟩ := exists_heading (σ * -ny) (σ * nx) (by linear_combination (nx ^ 2 + ny ^ 2) * σ2 + H.unit)
  set phi := atan2 (σ * nx) (σ * -ny) with hphi
  clear_value phi
  set Cx := p + len * (σ * -ny) + (if (l1 == l2) = true then 0 else 2 * r * nx) with hCx
  set Cy := q + len * (σ * nx) + (if (l1 == l2) = true then 0 else 2 * r * ny) with hCy
  have hcx : |Cx - P| ≤ 9.9 / 16777216 * r + 1.01 / 16777216 * ρ := H.cx
  have hcy : |Cy - Q| ≤ 9.9 / 16777216 * r + 1.01 / 16777216 * ρ := H.cy
  have r0 := h.lo
  refine ⟨⟨t.x + (Cx - (turnCenter l2 r t).1), t.y + (Cy - (turnCenter l2 r t).2), t.theta⟩,
    p + r * nx, q + r * ny, p + r * nx + len * (σ * -ny), q + r * ny + len * (σ * nx), phi, ⟨⟨?_, ?_, ?_, ?_, H.nonneg⟩, rfl, ?_, ?_, ?_, ?_, ?_, ?_⟩⟩
  · rw [show turnCenter l1 r ⟨0, 0, 0⟩ = (p, q) from rfl]
    simp only [turnCenter, ec, es]
    rw [hσ]
    clear_value p q
    cases l1 <;> simp
  · have e : turnCenter l2 r ⟨t.x + (Cx - (turnCenter l2 r t).1), t.y + (Cy - (turnCenter l2 r t).2), t.theta⟩ = (Cx, Cy) := by
      clear_value Cx Cy
      cases l2 <;> simp [turnCenter] <;> constructor <;> ring
    rw [e]
    simp only [turnCenter, ec, es]
    rw [hCx, hCy, hσ]
    clear_value p q
    cases l1 <;> cases l2 <;> simp <;> constructor <;> ring
  · rw [ec]
  · rw [es]
  · have e : t.x + (Cx - (turnCenter l2 r t).1) - t.x = (Cx - P) + (P - (turnCenter l2 r t).1) := by ring
    rw [e]
    refine (abs_add_le _ _).trans ?_
    generalize |Cx - P| = z1 at *
    generalize |P - (turnCenter l2 r t).1| = z2 at *
    clear H
    norm_num at hcx hP hρ h4 ⊢
    linarith
  · have e : t.y + (Cy - (turnCenter l2 r t).2) - t.y = (Cy - Q) + (Q - (turnCenter l2 r t).2) := by ring
    rw [e]
    refine (abs_add_le _ _).trans ?_
    generalize |Cy - Q| = z1 at *
    generalize |Q - (turnCenter l2 r t).2| = z2 at *
    clear H
    norm_num at hcy hQ hρ h4 ⊢
    linarith
  · refine H.px.trans ?_
    norm_num
    linarith
  · refine H.py.trans ?_
    norm_num
    linarith
  · have hx := H.qx
    have e : x2 - (p + r * nx + len * (σ * -ny)) =
        (x2 - (P + (if (l1 == l2) = true then 1 else -1) * (r * nx))) - (Cx - P) := by
      rw [hCx]; split_ifs <;> ring
    rw [e]
    refine (abs_sub _ _).trans ?_
    generalize |Cx - P| = z1 at *
    generalize |x2 - (P + (if (l1 == l2) = true then 1 else -1) * (r * nx))| = z2 at *
    clear H e
    norm_num at hcx hx bP hρ h4 ⊢
    linarith
  · have hy := H.qy
    have e : y2 - (q + r * ny + len * (σ * nx)) =
        (y2 - (Q + (if (l1 == l2) = true then 1 else -1) * (r * ny))) - (Cy - Q) := by
      rw [hCy]; split_ifs <;> ring
    rw [e]
    refine (abs_sub _ _).trans ?_
    generalize |Cy - Q| = z1 at *
    generalize |y2 - (Q + (if (l1 == l2) = true then 1 else -1) * (r * ny))| = z2 at *
    clear H e
    norm_num at hcy hy bQ hρ h4 ⊢
    linarith

theorem startF_eq (r : ℝ) (l : Bool) :
    startF r l = ⟨fin (turnCenter l r ⟨0, 0, 0⟩).1, fin (turnCenter l r ⟨0, 0, 0⟩).2⟩ := by
  cases l <;> simp [startF, turnCenter, neg]

/-- A candidate of the code: all NaN, for circles on different sides that touch each other up to rounding, or accurate. -/
theorem cand_fin (m : Libm) (hm : m.Accurate) {t : AlMath.Pose2D} {r : ℝ} (h : DubinsInput t r)
    (h4 : 4 * r * (1 - 2.2 / 16777216) ≤ reach t) (l1 l2 : Bool) :
    (l1 ≠ l2 ∧ ‖gapVec t r l1 l2‖ < 2 * r + 8 / 16777216 * reach t ∧ candF m t r l1 l2 = (⟨nan, nan, l1⟩, ⟨nan, nan, l2⟩)) ∨
    ∃ x1 y1 x2 y2 t' X1 Y1 X2 Y2 phi len, candF m t r l1 l2 = (⟨fin x1, fin y1, l1⟩, ⟨fin x2, fin y2, l2⟩) ∧
      Rep x1 ∧ Rep y1 ∧ Rep x2 ∧ Rep y2 ∧ CandNear t r l1 l2 x1 y1 x2 y2 t' X1 Y1 X2 Y2 phi len := by
  obtain ⟨P, Q, e1, hP, hQ⟩ := endF_fin m hm h h4 l2
  have r0 := h.lo
  have r1 := h.hi
  have T1 := reach_le h
  obtain ⟨bx, by'⟩ := abs_le_reach t
  obtain ⟨g1, g2⟩ := gapVec_bnd t (by linarith : 0 ≤ r) l1 l2
  have sb : ∀ l, |(turnCenter l r ⟨0, 0, 0⟩).1| ≤ r ∧ |(turnCenter l r ⟨0, 0, 0⟩).2| ≤ r := by
    intro l
    cases l <;> simp [turnCenter, abs_of_pos (by linarith : 0 < r)] <;> linarith
  obtain ⟨hp, hq⟩ := sb l1
  have eb : |(turnCenter l2 r t).1| ≤ reach t + r ∧ |(turnCenter l2 r t).2| ≤ reach t + r := by
    have s1 : |r * Real.sin t.theta| ≤ r := by
      rw [abs_mul, abs_of_pos (by linarith)]
      nlinarith [Real.abs_sin_le_one t.theta, abs_nonneg (Real.sin t.theta)]
    have c1 : |r * Real.cos t.theta| ≤ r := by
      rw [abs_mul, abs_of_pos (by linarith)]
      nlinarith [Real.abs_cos_le_one t.theta, abs_nonneg (Real.cos t.theta)]
    cases l2 <;> simp only [turnCenter, Bool.false_eq_true, if_false, if_true]
    · exact ⟨(abs_add_le _ _).trans (by linarith), (abs_sub _ _).trans (by linarith)⟩
    · exact ⟨(abs_sub _ _).trans (by linarith), (abs_add_le _ _).trans (by linarith)⟩
  have bP : |P| ≤ 1.251 * reach t := by
    have := le_of_err hP
    have := eb.1
    norm_num at *
    linarith
  have bQ : |Q| ≤ 1.251 * reach t := by
    have := le_of_err hQ
    have := eb.2
    norm_num at *
    linarith
  have gv : gapVec t r l1 l2 = ⟨(turnCenter l2 r t).1 - (turnCenter l1 r ⟨0, 0, 0⟩).1,
    (turnCenter l2 r t).2 - (turnCenter l1 r ⟨0, 0, 0⟩).2⟩ := rfl
  have sF := startF_eq r l1
  generalize hpp : (turnCenter l1 r ⟨0, 0, 0⟩).1 = p at *
  generalize hqq : (turnCenter l1 r ⟨0, 0, 0⟩).2 = q at *
  have coord : ∀ {P E p : ℝ}, |P - E| ≤ 2.1 / 16777216 * reach t → |P| ≤ 1.251 * reach t → |p| ≤ r →
      |rnd (P - p) - (E - p)| ≤ 3.7 / 16777216 * reach t := by
    intro P E p k1 k2 k3
    have k4 := rnd_bnd (P - p)
    have k5 := abs_sub P p
    have e : rnd (P - p) - (E - p) = (rnd (P - p) - (P - p)) + (P - E) := by ring
    rw [e]
    refine (abs_add_le _ _).trans ?_
    generalize |rnd (P - p) - (P - p)| = z at *
    generalize |P - p| = z' at *
    generalize |P - E| = z'' at *
    norm_num at k1 k2 k3 k4 k5 h4 ⊢
    linarith
  have dn : ‖(⟨rnd (P - p), rnd (Q - q)⟩ : ℂ) - gapVec t r l1 l2‖ ≤ 5.3 / 16777216 * reach t := by
    rw [gv]
    refine (norm_box (coord hP bP hp) (coord hQ bQ hq)).trans ?_
    norm_num
    linarith [reach_nonneg t]
  have n1 := norm_sub_norm_le (⟨rnd (P - p), rnd (Q - q)⟩ : ℂ) (gapVec t r l1 l2)
  have n2 := norm_sub_norm_le (gapVec t r l1 l2) (⟨rnd (P - p), rnd (Q - q)⟩ : ℂ)
  rw [norm_sub_rev] at n2
  have hρ : ‖(⟨rnd (P - p), rnd (Q - q)⟩ : ℂ)‖ ^ 2 = rnd (P - p) ^ 2 + rnd (Q - q) ^ 2 := by
    rw [norm_mk, Real.sq_sqrt (by positivity)]
  generalize ‖(⟨rnd (P - p), rnd (Q - q)⟩ : ℂ)‖ = ρ at *
  generalize ‖gapVec t r l1 l2‖ = G at *
  have lo : 1.9 * r ≤ ρ := by
    norm_num at h4 dn n1 n2 g1 ⊢
    linarith
  have hi : ρ ≤ 1.501 * reach t := by
    norm_num at h4 dn n1 n2 g2 ⊢
    linarith
  rcases tangent_fin l1 (l1 == l2) h.repR r0 r1 hp hq (by linarith) (by linarith) hρ lo (by linarith) with ⟨k1, k2, k3⟩ | H
  · left
    refine ⟨by simpa using k1, ?_, ?_⟩
    · norm_num at k2 h4 dn n2 ⊢
      linarith
    · unfold candF
      rw [e1, sF, k3]
  · right
    obtain ⟨x1, y1, x2, y2, nx, ny, len, k1, k2, k3, k4, k5, k6⟩ := H
    rw [← hpp, ← hqq] at k6
    obtain ⟨t', X1, Y1, X2, Y2, phi, K⟩ := cand_near h h4 l1 l2 hP hQ bP bQ hi k6
    refine ⟨x1, y1, x2, y2, t', X1, Y1, X2, Y2, phi, len, ?_, k2, k3, k4, k5, K⟩
    unfold candF
    rw [e1, sF, k1]

/-! ### Lengths and choice -/

theorem lt_trans' {a b c : F32} (h1 : lt a b) (h2 : lt b c) : lt a c := by
  cases a <;> cases b <;> cases c <;> simp only [lt] at * <;> linarith

theorem bestLoop_choice (ts : List (DubinsTangent × DubinsTangent)) (s : F32) (b : DubinsTangent × DubinsTangent) :
    (bestLoop ts s b = b ∧ ∀ t ∈ ts, ¬ lt (tangentLength t) s) ∨
    (bestLoop ts s b ∈ ts ∧ lt (tangentLength (bestLoop ts s b)) s ∧
      ∀ t ∈ ts, ¬ lt (tangentLength t) (tangentLength (bestLoop ts s b))) := by
  have irr : ∀ a : F32, ¬ lt a a := by intro a; cases a <;> simp [lt]
  induction ts generalizing s b with
  | nil => left; exact ⟨rfl, by simp⟩
  | cons t ts ih =>
    unfold bestLoop
    dsimp only
    split_ifs with h
    · right
      rcases ih (tangentLength t) t with ⟨h1, h2⟩ | ⟨h1, h2, h3⟩
      · rw [h1]
        refine ⟨by simp, h, ?_⟩
        intro v hv
        rcases List.mem_cons.1 hv with rfl | hv
        · exact irr _
        · exact h2 v hv
      · refine ⟨by simp [h1], lt_trans' h2 h, ?_⟩
        intro v hv
        rcases List.mem_cons.1 hv with rfl | hv
        · exact fun h5 => irr _ (lt_trans' h5 h2)
        · exact h3 v hv
    · rcases ih s b with ⟨h1, h2⟩ | ⟨h1, h2, h3⟩
      · left
        refine ⟨h1, ?_⟩
        intro v hv
        rcases List.mem_cons.1 hv with rfl | hv
        · exact h
        · exact h2 v hv
      · right
        refine ⟨by simp [h1], h2, ?_⟩
        intro v hv
        rcases List.mem_cons.1 hv with rfl | hv
        · exact fun h5 => h (lt_trans' h5 h2)
        · exact h3 v hv

/-- The difference of two floats. -/
theorem gap_fin {x y : ℝ} (hx : Rep x) (hy : Rep y) (h : |x - y| ≤ 16777216) :
    sub (fin x) (fin y) = fin (rnd (x - y)) ∧ Rep (rnd (x - y)) ∧ |rnd (x - y) - (x - y)| ≤ 1 / 16777216 * |x - y| := by
  have m : |x - y| ≤ 2 ^ 127 := h.trans (by norm_num)
  have := rnd_add hx.grid hy.neg.grid
  rw [← sub_eq_add_neg, two_neg24] at this
  exact ⟨sub_fin m, rnd_rep m, this⟩

theorem square_diff {d a : ℝ} (h : |d - a| ≤ 1 / 16777216 * |a|) : |d * d - a ^ 2| ≤ 2.01 / 16777216 * a ^ 2 := by
  have e : d * d - a ^ 2 = (d - a) * (d - a) + 2 * (a * (d - a)) := by ring
  have a0 := abs_nonneg a
  have k1 : |(d - a) * (d - a)| ≤ (1 / 16777216 * |a|) * (1 / 16777216 * |a|) := by
    rw [abs_mul]
    exact mul_le_mul h h (abs_nonneg _) (by positivity)
  have k2 : |2 * (a * (d - a))| ≤ 2 * (|a| * (1 / 16777216 * |a|)) := by
    rw [abs_mul, abs_mul, abs_two]
    gcongr
  rw [e]
  refine (abs_add_le _ _).trans ((add_le_add k1 k2).trans ?_)
  rw [← sq_abs a]
  nlinarith

/-- The squared length of the segment of a candidate. -/
theorem tangentLength_fin {x1 y1 x2 y2 : ℝ} (a : Bool) (b : Bool) (r1 : Rep x1) (r2 : Rep y1) (r3 : Rep x2) (r4 : Rep y2)
    (hx : |x1 - x2| ≤ 4194304) (hy : |y1 - y2| ≤ 4194304) :
    ∃ L, tangentLength (⟨fin x1, fin y1, a⟩, ⟨fin x2, fin y2, b⟩) = fin L ∧
      |L - ((x2 - x1) ^ 2 + (y2 - y1) ^ 2)| ≤ 4.1 / 16777216 * ((x2 - x1) ^ 2 + (y2 - y1) ^ 2) + 1 / 10 ^ 20 := by
  obtain ⟨d1, -, d2⟩ := gap_fin r1 r3 (hx.trans (by norm_num))
  obtain ⟨e1, -, e2⟩ := gap_fin r2 r4 (hy.trans (by norm_num))
  have s1 := square_diff d2
  have s2 := square_diff e2
  have q1 : (x1 - x2) ^ 2 ≤ 17592186044416 := by
    have := sq_le_sq' (abs_le.1 hx).1 (abs_le.1 hx).2
    norm_num at this ⊢
    exact this
  have q2 : (y1 - y2) ^ 2 ≤ 17592186044416 := by
    have := sq_le_sq' (abs_le.1 hy).1 (abs_le.1 hy).2
    norm_num at this ⊢
    exact this
  have n1 := sq_nonneg (x1 - x2)
  have n2 := sq_nonneg (y1 - y2)
  unfold tangentLength
  simp only [d1, e1]
  rw [show (x2 - x1) ^ 2 + (y2 - y1) ^ 2 = (x1 - x2) ^ 2 + (y1 - y2) ^ 2 by ring]
  have m1 := mul_self_nonneg (rnd (x1 - x2))
  have m2 := mul_self_nonneg (rnd (y1 - y2))
  have big : (17592186044416 * 4 : ℝ) ≤ 2 ^ 127 := by norm_num
  generalize (x1 - x2) ^ 2 = A at *
  generalize (y1 - y2) ^ 2 = B at *
  rw [show mul (fin (rnd (x1 - x2))) (fin (rnd (x1 - x2))) = round (rnd (x1 - x2) * rnd (x1 - x2)) from rfl,
    show mul (fin (rnd (y1 - y2))) (fin (rnd (y1 - y2))) = round (rnd (y1 - y2) * rnd (y1 - y2)) from rfl]
  generalize rnd (x1 - x2) * rnd (x1 - x2) = p at *
  generalize rnd (y1 - y2) * rnd (y1 - y2) = q at *
  clear d1 d2 e1 e2 hx hy
  obtain ⟨k1, k2⟩ := abs_le.1 s1
  obtain ⟨k3, k4⟩ := abs_le.1 s2
  have t1 := rnd_bnd p
  have t2 := rnd_bnd q
  rw [abs_of_nonneg m1] at t1
  rw [abs_of_nonneg m2] at t2
  have p1 : |p| ≤ 2 ^ 127 := by rw [abs_of_nonneg m1]; norm_num at k2 n1 q1 ⊢; linarith
  have p2 : |q| ≤ 2 ^ 127 := by rw [abs_of_nonneg m2]; norm_num at k4 n2 q2 ⊢; linarith
  rw [round_fin p1, round_fin p2]
  have z1 : 0 ≤ rnd p := le_rnd_of_le Rep.zero.grid m1
  have z2 : 0 ≤ rnd q := le_rnd_of_le Rep.zero.grid m2
  generalize rnd p = v at *
  generalize rnd q = w at *
  obtain ⟨k5, k6⟩ := abs_le.1 t1
  obtain ⟨k7, k8⟩ := abs_le.1 t2
  have t3 := rnd_bnd (v + w)
  rw [abs_of_nonneg (by linarith : 0 ≤ v + w)] at t3
  obtain ⟨k9, k10⟩ := abs_le.1 t3
  refine ⟨rnd (v + w), add_fin ?_, ?_⟩
  · rw [abs_of_nonneg (by linarith : 0 ≤ v + w)]
    clear k9 k10 t1 t2 t3 p1 p2 s1 s2
    norm_num at *
    linarith
  · clear t1 t2 t3 p1 p2 s1 s2 big
    rw [abs_le]
    norm_num at *
    constructor <;> linarith

/-- The vectors between centres for two targets with the same heading. -/
theorem gapVec_sub {t t' : AlMath.Pose2D} (h : t'.theta = t.theta) (r : ℝ) (l1 l2 : Bool) :
    gapVec t' r l1 l2 - gapVec t r l1 l2 = ⟨t'.x - t.x, t'.y - t.y⟩ := by
  apply Complex.ext <;> cases l2 <;> simp [gapVec, turnCenter, h] <;> ring

/-- The computed length of a candidate against its length and the length of the exact path. -/
theorem cand_length {t : AlMath.Pose2D} {r : ℝ} (h : DubinsInput t r) (h4 : 4 * r * (1 - 2.2 / 16777216) ≤ reach t) {l1 l2 : Bool}
    {x1 y1 x2 y2 X1 Y1 X2 Y2 phi len : ℝ} {t' : AlMath.Pose2D} (r1 : Rep x1) (r2 : Rep y1) (r3 : Rep x2) (r4 : Rep y2)
    (H : CandNear t r l1 l2 x1 y1 x2 y2 t' X1 Y1 X2 Y2 phi len) :
    ∃ L, tangentLength (⟨fin x1, fin y1, l1⟩, ⟨fin x2, fin y2, l2⟩) = fin L ∧
      |L - ((x2 - x1) ^ 2 + (y2 - y1) ^ 2)| ≤ 10 / 16777216 * reach t ^ 2 ∧
      |L - (‖gapVec t r l1 l2‖ ^ 2 - if l1 = l2 then 0 else 4 * r ^ 2)| ≤ 100 / 16777216 * reach t ^ 2 ∧
      ‖(⟨x2 - x1, y2 - y1⟩ : ℂ)‖ ≤ 1.52 * reach t := by
  have r0 := h.lo
  have T0 : 1 / 512 ≤ reach t := by norm_num at h4 ⊢; linarith
  have T1 := reach_le h
  obtain ⟨-, g2⟩ := gapVec_bnd t (by linarith : 0 ≤ r) l1 l2
  have g0 := norm_nonneg (gapVec t r l1 l2)
  have gd : ‖gapVec t' r l1 l2 - gapVec t r l1 l2‖ ≤ 9.91 / 16777216 * reach t := by
    rw [gapVec_sub H.heading]
    refine (norm_box H.tx H.ty).trans ?_
    norm_num
    linarith
  have ga := norm_sub_norm_le (gapVec t' r l1 l2) (gapVec t r l1 l2)
  have gb := norm_sub_norm_le (gapVec t r l1 l2) (gapVec t' r l1 l2)
  rw [norm_sub_rev] at gb
  have hl := path_len H.path
  rw [← gapVec_sq] at hl
  have g0' := norm_nonneg (gapVec t' r l1 l2)
  generalize ‖gapVec t' r l1 l2 - gapVec t r l1 l2‖ = δ at *
  generalize ‖gapVec t' r l1 l2‖ = G' at *
  generalize ‖gapVec t r l1 l2‖ = G at *
  have G1 : G ≤ 1.501 * reach t := by norm_num at h4 ⊢; linarith
  have G2 : G' ≤ 1.502 * reach t := by norm_num at gd ⊢; linarith
  obtain ⟨-, -, q3, q4, l0⟩ := H.path
  have ll : len ≤ 1.502 * reach t := by
    refine le_trans ?_ G2
    refine abs_le_of_sq_le_sq' ?_ g0' |>.2
    rw [hl]
    split_ifs
    · linarith
    · nlinarith [sq_nonneg r]
  have zn : ‖(⟨X2 - X1, Y2 - Y1⟩ : ℂ)‖ = len := by
    rw [norm_mk, q3, q4, show (X1 + len * Real.cos phi - X1) ^ 2 + (Y1 + len * Real.sin phi - Y1) ^ 2 = len ^ 2 by
      linear_combination len ^ 2 * Real.sin_sq_add_cos_sq phi, Real.sqrt_sq l0]
  have zd : ‖(⟨x2 - x1, y2 - y1⟩ : ℂ) - ⟨X2 - X1, Y2 - Y1⟩‖ ≤ 17 / 16777216 * reach t := by
    have c1 : |(x2 - x1) - (X2 - X1)| ≤ 12.01 / 16777216 * reach t := by
      have e : (x2 - x1) - (X2 - X1) = (x2 - X2) - (x1 - X1) := by ring
      rw [e]
      refine (abs_sub _ _).trans ((add_le_add H.x2 H.x1).trans ?_)
      norm_num at h4 ⊢
      linarith
    have c2 : |(y2 - y1) - (Y2 - Y1)| ≤ 12.01 / 16777216 * reach t := by
      have e : (y2 - y1) - (Y2 - Y1) = (y2 - Y2) - (y1 - Y1) := by ring
      rw [e]
      refine (abs_sub _ _).trans ((add_le_add H.y2 H.y1).trans ?_)
      norm_num at h4 ⊢
      linarith
    refine (norm_box c1 c2).trans ?_
    norm_num
    linarith
  have za := norm_sub_norm_le (⟨x2 - x1, y2 - y1⟩ : ℂ) ⟨X2 - X1, Y2 - Y1⟩
  have zb := norm_sub_norm_le (⟨X2 - X1, Y2 - Y1⟩ : ℂ) ⟨x2 - x1, y2 - y1⟩
  rw [norm_sub_rev] at zb
  rw [zn] at za zb
  have z2 : ‖(⟨x2 - x1, y2 - y1⟩ : ℂ)‖ ^ 2 = (x2 - x1) ^ 2 + (y2 - y1) ^ 2 := by
    rw [norm_mk, Real.sq_sqrt (by positivity)]
  have c1 := Complex.abs_re_le_norm (⟨x2 - x1, y2 - y1⟩ : ℂ)
  have c2 := Complex.abs_im_le_norm (⟨x2 - x1, y2 - y1⟩ : ℂ)
  have z0 := norm_nonneg (⟨x2 - x1, y2 - y1⟩ : ℂ)
  simp only at c1 c2
  generalize ‖(⟨x2 - x1, y2 - y1⟩ : ℂ) - ⟨X2 - X1, Y2 - Y1⟩‖ = ε at *
  generalize ‖(⟨x2 - x1, y2 - y1⟩ : ℂ)‖ = ℓ at *
  have lT : ℓ ≤ 1.503 * reach t := by norm_num at zd ⊢; linarith
  obtain ⟨L, e1, e2⟩ := tangentLength_fin l1 l2 r1 r2 r3 r4 (by rw [abs_sub_comm]; linarith) (by rw [abs_sub_comm]; linarith)
  refine ⟨L, e1, ?_, ?_, by linarith⟩
  all_goals rw [← z2] at e2
  · rw [← z2]
    refine e2.trans ?_
    have : ℓ ^ 2 ≤ (1.503 * reach t) ^ 2 := pow_le_pow_left₀ z0 lT 2
    have : (1 / 512 : ℝ) ^ 2 ≤ reach t ^ 2 := pow_le_pow_left₀ (by norm_num) T0 2
    rw [mul_pow] at *
    generalize reach t ^ 2 = TT at *
    generalize ℓ ^ 2 = LL at *
    norm_num at *
    linarith
  · have k1 : |ℓ ^ 2 - len ^ 2| ≤ 17 / 16777216 * reach t * (3.01 * reach t) := by
      rw [show ℓ ^ 2 - len ^ 2 = (ℓ - len) * (ℓ + len) by ring, abs_mul, abs_of_nonneg (by linarith : 0 ≤ ℓ + len)]
      refine mul_le_mul (abs_le.2 ⟨by linarith, by linarith⟩) (by linarith) (by linarith) (by linarith)
    have k2 : |G' ^ 2 - G ^ 2| ≤ 9.91 / 16777216 * reach t * (3.01 * reach t) := by
      rw [show G' ^ 2 - G ^ 2 = (G' - G) * (G' + G) by ring, abs_mul, abs_of_nonneg (by linarith : 0 ≤ G' + G)]
      refine mul_le_mul (abs_le.2 ⟨by linarith, by linarith⟩) (by linarith) (by linarith) (by linarith)
    have k3 : |L - ℓ ^ 2| ≤ 10 / 16777216 * reach t ^ 2 := by
      refine e2.trans ?_
      have : ℓ ^ 2 ≤ (1.503 * reach t) ^ 2 := pow_le_pow_left₀ z0 lT 2
      have : (1 / 512 : ℝ) ^ 2 ≤ reach t ^ 2 := pow_le_pow_left₀ (by norm_num) T0 2
      rw [mul_pow] at *
      generalize reach t ^ 2 = TT at *
      generalize ℓ ^ 2 = LL at *
      norm_num at *
      linarith
    have e3 : 17 / 16777216 * reach t * (3.01 * reach t) = 17 / 16777216 * 3.01 * reach t ^ 2 := by ring
    have e4 : 9.91 / 16777216 * reach t * (3.01 * reach t) = 9.91 / 16777216 * 3.01 * reach t ^ 2 := by ring
    rw [e3] at k1
    rw [e4] at k2
    generalize (if l1 = l2 then 0 else 4 * r ^ 2) = κ at *
    rw [hl] at k1
    rw [abs_le] at *
    have T2 := sq_nonneg (reach t)
    generalize reach t ^ 2 = TT at *
    generalize ℓ ^ 2 = LL at *
    generalize G' ^ 2 = g' at *
    generalize G ^ 2 = g at *
    clear e2 z2 c1 c2 hl zn e1
    norm_num at k1 k2 k3 ⊢
    constructor <;> linarith [k1.1, k1.2, k2.1, k2.2, k3.1, k3.2]

/-- The candidate that is chosen. -/
theorem chosen (m : Libm) (hm : m.Accurate) {t : AlMath.Pose2D} {r : ℝ} (h : DubinsInput t r)
    (h4 : 4 * r * (1 - 2.2 / 16777216) ≤ reach t) :
    ∃ l1 l2 x1 y1 x2 y2 t' X1 Y1 X2 Y2 phi len,
      xComputeBestTangent (xGetTangents (xGetCircles m ⟨fin t.x, fin t.y, fin t.theta⟩ (fin r)) (fin r)) =
        (⟨fin x1, fin y1, l1⟩, ⟨fin x2, fin y2, l2⟩) ∧
      Rep x1 ∧ Rep y1 ∧ Rep x2 ∧ Rep y2 ∧ CandNear t r l1 l2 x1 y1 x2 y2 t' X1 Y1 X2 Y2 phi len ∧
      candF m t r l1 l2 = (⟨fin x1, fin y1, l1⟩, ⟨fin x2, fin y2, l2⟩) ∧
      ∀ l1' l2', ¬ lt (tangentLength (candF m t r l1' l2')) (tangentLength (⟨fin x1, fin y1, l1⟩, ⟨fin x2, fin y2, l2⟩)) := by
  rw [tangents_eq]
  have mem : ∀ l1 l2, candF m t r l1 l2 ∈
      [candF m t r true true, candF m t r true false, candF m t r false true, candF m t r false false] := by
    intro l1 l2
    cases l1 <;> cases l2 <;> simp
  unfold xComputeBestTangent
  have T1 := reach_le h
  have T0 := reach_nonneg t
  rcases bestLoop_choice [candF m t r true true, candF m t r true false, candF m t r false true, candF m t r false false]
    (fin (2 ^ 128 - 2 ^ 104)) ({}, {}) with ⟨-, h2⟩ | ⟨h1, h2, h3⟩
  · exfalso
    rcases cand_fin m hm h h4 true true with ⟨h5, -, -⟩ | ⟨x1, y1, x2, y2, t', X1, Y1, X2, Y2, phi, len, e, r1, r2, r3, r4, H⟩
    · exact h5 rfl
    · obtain ⟨L, k1, k2, -, k3⟩ := cand_length h h4 r1 r2 r3 r4 H
      have := h2 _ (mem true true)
      rw [e, k1] at this
      refine this ?_
      show L < 2 ^ 128 - 2 ^ 104
      have z2 : ‖(⟨x2 - x1, y2 - y1⟩ : ℂ)‖ ^ 2 = (x2 - x1) ^ 2 + (y2 - y1) ^ 2 := by
        rw [norm_mk, Real.sq_sqrt (by positivity)]
      have q1 := pow_le_pow_left₀ (norm_nonneg _) k3 2
      have q2 := pow_le_pow_left₀ T0 T1 2
      rw [z2, mul_pow] at q1
      have := (abs_le.1 k2).2
      generalize reach t ^ 2 = TT at *
      generalize (x2 - x1) ^ 2 + (y2 - y1) ^ 2 = LL at *
      norm_num at q1 q2 this ⊢
      linarith
  · have : ∃ l1 l2, bestLoop [candF m t r true true, candF m t r true false, candF m t r false true, candF m t r false false]
        (fin (2 ^ 128 - 2 ^ 104)) ({}, {}) = candF m t r l1 l2 := by
      simp only [List.mem_cons, List.not_mem_nil, or_false] at h1
      rcases h1 with h1 | h1 | h1 | h1
      · exact ⟨true, true, h1⟩
      · exact ⟨true, false, h1⟩
      · exact ⟨false, true, h1⟩
      · exact ⟨false, false, h1⟩
    obtain ⟨l1, l2, hb⟩ := this
    rw [hb] at h2 h3 ⊢
    rcases cand_fin m hm h h4 l1 l2 with ⟨-, -, h5⟩ | ⟨x1, y1, x2, y2, t', X1, Y1, X2, Y2, phi, len, e, r1, r2, r3, r4, H⟩
    · rw [h5] at h2
      simp [tangentLength, sub, add, mul, neg, lt] at h2
    · refine ⟨l1, l2, x1, y1, x2, y2, t', X1, Y1, X2, Y2, phi, len, e, r1, r2, r3, r4, H, e, fun l1' l2' => ?_⟩
      rw [← e]
      exact h3 _ (mem l1' l2')

/-! ### The headings -/

theorem two_piF : mul (fin 2) (fin piF) = fin (2 * piF) := by
  rw [mul, round_rep]
  refine ⟨13176795, -21, by norm_num, by norm_num, by norm_num, ?_⟩
  norm_num [piF]

theorem piF_bounds : |piF - Real.pi| ≤ 1.47 / 16777216 ∧ 3.14 ≤ piF ∧ piF ≤ 3.15 := by
  have h1 := Real.pi_gt_d20
  have h2 := Real.pi_lt_d20
  norm_num [piF] at *
  rw [abs_le]
  constructor <;> linarith

/-- The direction of the segment of the code, before the full turns. -/
theorem heading_fin (m : Libm) (hm : m.Accurate) {x1 y1 x2 y2 : ℝ} (r1 : Rep x1) (r2 : Rep y1) (r3 : Rep x2) (r4 : Rep y2)
    (hx : |x2 - x1| ≤ 16777216) (hy : |y2 - y1| ≤ 16777216) :
    ∃ α, m.atan2 (sub (fin y2) (fin y1)) (sub (fin x2) (fin x1)) = fin α ∧ Rep α ∧ |α| ≤ 4 ∧
      ‖(‖(⟨x2 - x1, y2 - y1⟩ : ℂ)‖ : ℂ) * Complex.exp (α * Complex.I) - ⟨x2 - x1, y2 - y1⟩‖ ≤
        11 / 16777216 * ‖(⟨x2 - x1, y2 - y1⟩ : ℂ)‖ := by
  obtain ⟨d1, d3, d2⟩ := gap_fin r3 r1 hx
  obtain ⟨e1, e3, e2⟩ := gap_fin r4 r2 hy
  rw [d1, e1]
  obtain ⟨α, a1, a2, a3, a4⟩ := hm.atan2 _ _ e3 d3
  refine ⟨α, a1, a2, a3, ?_⟩
  set v : ℂ := ⟨rnd (x2 - x1), rnd (y2 - y1)⟩ with hv
  set z : ℂ := ⟨x2 - x1, y2 - y1⟩ with hz
  have vz : ‖v - z‖ ≤ 1 / 16777216 * ‖z‖ := by
    have k : ‖(⟨rnd (x2 - x1) - (x2 - x1), rnd (y2 - y1) - (y2 - y1)⟩ : ℂ)‖ ≤ 1 / 16777216 * ‖z‖ := by
      rw [norm_mk, hz, norm_mk]
      refine Real.sqrt_le_iff.2 ⟨by positivity, ?_⟩
      rw [mul_pow, Real.sq_sqrt (by positivity)]
      have k1 := pow_le_pow_left₀ (abs_nonneg _) d2 2
      have k2 := pow_le_pow_left₀ (abs_nonneg _) e2 2
      rw [sq_abs, mul_pow, sq_abs] at k1 k2
      linarith
    exact k
  have e21 : (2 : ℝ) ^ (-21 : ℤ) = 8 / 16777216 := by norm_num
  rw [e21] at a4
  have n1 := norm_sub_norm_le v z
  have n2 := norm_sub_norm_le z v
  rw [norm_sub_rev] at n2
  have e : (‖z‖ : ℂ) * Complex.exp (α * Complex.I) - z =
      ((‖v‖ : ℂ) * Complex.exp (α * Complex.I) - v) + (((‖z‖ - ‖v‖ : ℝ) : ℂ) * Complex.exp (α * Complex.I) + (v - z)) := by
    push_cast
    ring
  rw [e]
  refine (norm_add_le _ _).trans ?_
  have k3 := norm_add_le (((‖z‖ - ‖v‖ : ℝ) : ℂ) * Complex.exp (α * Complex.I)) (v - z)
  rw [norm_mul, Complex.norm_exp_ofReal_mul_I, mul_one, Complex.norm_real, Real.norm_eq_abs] at k3
  have k4 : |‖z‖ - ‖v‖| ≤ ‖v - z‖ := abs_le.2 ⟨by linarith, by linarith⟩
  have z0 := norm_nonneg z
  generalize ‖((‖z‖ - ‖v‖ : ℝ) : ℂ) * Complex.exp (α * Complex.I) + (v - z)‖ = w1 at *
  generalize ‖(‖v‖ : ℂ) * Complex.exp (α * Complex.I) - v‖ = w2 at *
  generalize ‖v - z‖ = w3 at *
  generalize ‖v‖ = w4 at *
  generalize |‖z‖ - w4| = w5 at *
  generalize ‖z‖ = w6 at *
  clear e hv hz
  norm_num at vz a4 ⊢
  linarith

/-- The heading of the first pose: the direction of the segment, or a full turn more. -/
theorem heading1_fin (l : Bool) {α : ℝ} (hα : Rep α) (h : |α| ≤ 4) :
    ∃ β, dubinsHeading1 l (fin α) = fin β ∧
      (∃ k : ℤ, |β - (α + k * (2 * Real.pi))| ≤ 14 / 16777216 ∧
        k = if (l = true ∧ α < 0) ∨ (l = false ∧ 0 < α) then 1 else 0) ∧ (l = true → 0 ≤ β) := by
  obtain ⟨p1, p2, p3⟩ := piF_bounds
  obtain ⟨a1, a2⟩ := abs_le.1 h
  have m1 : |2 * piF + α| ≤ 2 ^ 127 := by rw [abs_of_pos (by linarith)]; norm_num; linarith
  have e : add (mul (fin 2) (fin piF)) (fin α) = fin (rnd (2 * piF + α)) := by rw [two_piF, add_fin m1]
  have k := rnd_bnd (2 * piF + α)
  rw [abs_of_pos (by linarith : 0 < 2 * piF + α)] at k
  have q : |rnd (2 * piF + α) - (α + (1 : ℤ) * (2 * Real.pi))| ≤ 14 / 16777216 := by
    push_cast
    rw [abs_le] at *
    norm_num at k p1 ⊢
    constructor <;> linarith [k.1, k.2, p1.1, p1.2]
  have q0 : |α - (α + (0 : ℤ) * (2 * Real.pi))| ≤ 14 / 16777216 := by norm_num
  have n : 0 ≤ rnd (2 * piF + α) := le_rnd_of_le Rep.zero.grid (by linarith)
  unfold dubinsHeading1
  rw [e]
  cases l with
  | true =>
    dsimp only
    rw [if_neg (fun hh => hh.1 rfl)]
    rcases lt_or_ge α 0 with h0 | h0
    · rw [if_pos ⟨rfl, h0⟩]
      exact ⟨_, rfl, ⟨1, q, by rw [if_pos (by simp [h0])]⟩, fun _ => n⟩
    · rw [if_neg (fun hh => absurd hh.2 (not_lt.2 h0))]
      exact ⟨_, rfl, ⟨0, q0, by rw [if_neg (by simp [h0])]⟩, fun _ => h0⟩
  | false =>
    dsimp only
    rcases lt_or_ge 0 α with h0 | h0
    · rw [if_pos ⟨by simp, h0⟩]
      exact ⟨_, rfl, ⟨1, q, by rw [if_pos (by simp [h0])]⟩, fun hh => by simp at hh⟩
    · rw [if_neg (fun hh => absurd hh.2 (not_lt.2 h0)), if_neg (fun hh => by simp at hh)]
      exact ⟨_, rfl, ⟨0, q0, by rw [if_neg (by simp [h0])]⟩, fun hh => by simp at hh⟩

/-- The heading of the second pose: the direction of the segment up to full turns. -/
theorem heading2_fin (l : Bool) {α θ : ℝ} (hα : Rep α) (h : |α| ≤ 4) (hθ : Rep θ) (ht : |θ| ≤ 8) :
    ∃ β, dubinsHeading2 l (fin α) (fin θ) = fin β ∧
      ∃ k : ℤ, |β - (α + k * (2 * Real.pi))| ≤ 52 / 16777216 ∧
        k = if (l = true ∧ θ < α) ∨ (l = false ∧ α < θ) then 1 else 0 := by
  obtain ⟨p1, p2, p3⟩ := piF_bounds
  obtain ⟨a1, a2⟩ := abs_le.1 h
  obtain ⟨t1, t2⟩ := abs_le.1 ht
  have m1 : |θ - α| ≤ 12 := abs_le.2 ⟨by linarith, by linarith⟩
  have big : (100 : ℝ) ≤ 2 ^ 127 := by norm_num
  have k1 := rnd_bnd (θ - α)
  have s1 : sub (fin θ) (fin α) = fin (rnd (θ - α)) := sub_fin (by linarith)
  have k1' : |rnd (θ - α) - (θ - α)| ≤ 12.01 / 16777216 := by norm_num at k1 ⊢; linarith
  obtain ⟨k1a, k1b⟩ := abs_le.1 k1'
  obtain ⟨m1a, m1b⟩ := abs_le.1 m1
  obtain ⟨-, -, k0⟩ := gap_fin hθ hα (by linarith)
  have sn : rnd (θ - α) < 0 ↔ θ < α := by
    constructor
    · intro hh
      by_contra h0
      have := le_rnd_of_le (x := θ - α) Rep.zero.grid (by linarith)
      linarith
    · intro hh
      rw [abs_of_neg (by linarith : θ - α < 0)] at k0
      have := (abs_le.1 k0).2
      linarith
  have sp : 0 < rnd (θ - α) ↔ α < θ := by
    constructor
    · intro hh
      by_contra h0
      have := rnd_le_of_le (x := θ - α) Rep.zero.grid (by linarith)
      linarith
    · intro hh
      rw [abs_of_pos (by linarith : 0 < θ - α)] at k0
      have := (abs_le.1 k0).1
      linarith
  clear k0
  generalize rnd (θ - α) = d at *
  have m2 : |2 * piF - d| ≤ 18.4 := abs_le.2 ⟨by norm_num at *; linarith, by norm_num at *; linarith⟩
  have k2 := rnd_bnd (2 * piF - d)
  have k2' : |rnd (2 * piF - d) - (2 * piF - d)| ≤ 18.41 / 16777216 := by norm_num at k2 m2 ⊢; linarith
  have s2 : sub (fin (2 * piF)) (fin d) = fin (rnd (2 * piF - d)) := sub_fin (by norm_num at m2 big ⊢; linarith)
  obtain ⟨k2a, k2b⟩ := abs_le.1 k2'
  generalize rnd (2 * piF - d) = f at *
  have m3 : |f + θ| ≤ 10.4 := abs_le.2 ⟨by norm_num at *; linarith, by norm_num at *; linarith⟩
  have k3 := rnd_bnd (f + θ)
  have k3' : |rnd (f + θ) - (f + θ)| ≤ 10.41 / 16777216 := by norm_num at k3 m3 ⊢; linarith
  have s3 : add (fin f) (fin θ) = fin (rnd (f + θ)) := add_fin (by norm_num at m3 big ⊢; linarith)
  obtain ⟨k3a, k3b⟩ := abs_le.1 k3'
  generalize rnd (f + θ) = g at *
  obtain ⟨p1a, p1b⟩ := abs_le.1 p1
  have q : |g - (α + (1 : ℤ) * (2 * Real.pi))| ≤ 52 / 16777216 := by
    push_cast
    rw [abs_le]
    norm_num at k1a k1b k2a k2b k3a k3b p1a p1b ⊢
    constructor <;> linarith
  have q0 : |α - (α + (0 : ℤ) * (2 * Real.pi))| ≤ 52 / 16777216 := by norm_num
  have e : add (sub (mul (fin 2) (fin piF)) (fin d)) (fin θ) = fin g := by rw [two_piF, s2, s3]
  unfold dubinsHeading2
  rw [s1]
  dsimp only
  rw [e]
  have c1 : lt (fin d) (fin 0) ↔ θ < α := sn
  have c2 : lt (fin 0) (fin d) ↔ α < θ := sp
  cases l with
  | true =>
    rw [if_neg (fun hh => hh.1 rfl)]
    rcases lt_or_ge θ α with h0 | h0
    · rw [if_pos ⟨rfl, c1.2 h0⟩]
      exact ⟨_, rfl, 1, q, by rw [if_pos (by simp [h0])]⟩
    · rw [if_neg (fun hh => absurd (c1.1 hh.2) (not_lt.2 h0))]
      exact ⟨_, rfl, 0, q0, by rw [if_neg (by simp [h0])]⟩
  | false =>
    rcases lt_or_ge α θ with h0 | h0
    · rw [if_pos ⟨by simp, c2.2 h0⟩]
      exact ⟨_, rfl, 1, q, by rw [if_pos (by simp [h0])]⟩
    · rw [if_neg (fun hh => absurd (c2.1 hh.2) (not_lt.2 h0)), if_neg (fun hh => by simp at hh)]
      exact ⟨_, rfl, 0, q0, by rw [if_neg (by simp [h0])]⟩

/-- The points that the code returns, their sides and the direction of the segment. -/
theorem returned (m : Libm) (hm : m.Accurate) {t : AlMath.Pose2D} {r : ℝ} (h : DubinsInput t r) (ht : |t.theta| ≤ 8)
    (hne : dubins m t r ≠ .throws) :
    4 * r * (1 - 2.2 / 16777216) ≤ reach t ∧ ∃ x1 y1 h1 x2 y2 h2 l1 l2 t' X1 Y1 X2 Y2 phi len, ∃ α : ℝ,
      dubins m t r = .ok [⟨fin x1, fin y1, fin h1⟩, ⟨fin x2, fin y2, fin h2⟩, ⟨fin t.x, fin t.y, fin t.theta⟩] ∧
      Rep x1 ∧ Rep y1 ∧ Rep x2 ∧ Rep y2 ∧ CandNear t r l1 l2 x1 y1 x2 y2 t' X1 Y1 X2 Y2 phi len ∧
      (∀ l1' l2', ¬ lt (tangentLength (candF m t r l1' l2')) (tangentLength (⟨fin x1, fin y1, l1⟩, ⟨fin x2, fin y2, l2⟩))) ∧
      |α| ≤ 4 ∧ ‖(‖(⟨x2 - x1, y2 - y1⟩ : ℂ)‖ : ℂ) * Complex.exp (α * Complex.I) - ⟨x2 - x1, y2 - y1⟩‖ ≤
        11 / 16777216 * ‖(⟨x2 - x1, y2 - y1⟩ : ℂ)‖ ∧
      |h1 - (α + if (l1 = true ∧ α < 0) ∨ (l1 = false ∧ 0 < α) then 2 * Real.pi else 0)| ≤ 14 / 16777216 ∧
      |h2 - (α + if (l2 = true ∧ t.theta < α) ∨ (l2 = false ∧ α < t.theta) then 2 * Real.pi else 0)| ≤ 52 / 16777216 ∧
      (l1 = true → 0 ≤ h1) ∧ candF m t r l1 l2 = (⟨fin x1, fin y1, l1⟩, ⟨fin x2, fin y2, l2⟩) := by
  rcases gate m h with ⟨h0, -⟩ | ⟨h4, he⟩
  · exact absurd h0 hne
  refine ⟨h4, ?_⟩
  obtain ⟨l1, l2, x1, y1, x2, y2, t', X1, Y1, X2, Y2, phi, len, e, r1, r2, r3, r4, H, ec, hb⟩ := chosen m hm h h4
  have T1 := reach_le h
  obtain ⟨-, -, -, -, k3⟩ := cand_length h h4 r1 r2 r3 r4 H
  have bx : |x2 - x1| ≤ 16777216 := by
    have := Complex.abs_re_le_norm (⟨x2 - x1, y2 - y1⟩ : ℂ)
    norm_num at this k3 ⊢; linarith
  have by' : |y2 - y1| ≤ 16777216 := by
    have := Complex.abs_im_le_norm (⟨x2 - x1, y2 - y1⟩ : ℂ)
    norm_num at this k3 ⊢; linarith
  obtain ⟨α, a1, a2, a3, a4⟩ := heading_fin m hm r1 r2 r3 r4 bx by'
  obtain ⟨h1, b1, ⟨k, b2, bk⟩, b3⟩ := heading1_fin l1 a2 a3
  obtain ⟨h2, c1, k', c2, ck⟩ := heading2_fin l2 a2 a3 h.repTheta ht
  refine ⟨x1, y1, h1, x2, y2, h2, l1, l2, t', X1, Y1, X2, Y2, phi, len, α, ?_, r1, r2, r3, r4, H, hb, a3, a4, ?_, ?_, b3, ec⟩
  · rw [he, e]
    dsimp only
    rw [a1, b1, c1]
  · refine le_of_eq_of_le ?_ b2
    rw [bk]
    split_ifs <;> simp
  · refine le_of_eq_of_le ?_ c2
    rw [ck]
    split_ifs <;> simp

/-- A target the code does not reject, with a heading up to 8 radians: no NaN and no overflow; the two first poses are within
rounding of the ends of the segment of a path to a target within rounding of the given one. The third pose is the given one. The
headings are the direction of the segment, up to rounding, plus a full turn in the cases of the code. -/
theorem C105_path (m : Libm) (hm : m.Accurate) (t : AlMath.Pose2D) (r : ℝ) (h : DubinsInput t r) (ht : |t.theta| ≤ 8)
    (hne : dubins m t r ≠ .throws) :
    ∃ x1 y1 h1 x2 y2 h2 l1 l2 t' X1 Y1 X2 Y2 phi len, ∃ α : ℝ,
      dubins m t r = .ok [⟨fin x1, fin y1, fin h1⟩, ⟨fin x2, fin y2, fin h2⟩, ⟨fin t.x, fin t.y, fin t.theta⟩] ∧
      IsDubinsPath t' r l1 l2 X1 Y1 X2 Y2 phi len ∧
      t'.theta = t.theta ∧ |t'.x - t.x| ≤ 7 / 16777216 * reach t ∧ |t'.y - t.y| ≤ 7 / 16777216 * reach t ∧
      |x1 - X1| ≤ 12 / 16777216 * r ∧ |y1 - Y1| ≤ 12 / 16777216 * r ∧
      |x2 - X2| ≤ 9 / 16777216 * reach t ∧ |y2 - Y2| ≤ 9 / 16777216 * reach t ∧
      |α| ≤ 4 ∧ ‖(‖(⟨x2 - x1, y2 - y1⟩ : ℂ)‖ : ℂ) * Complex.exp (α * Complex.I) - ⟨x2 - x1, y2 - y1⟩‖ ≤
        11 / 16777216 * ‖(⟨x2 - x1, y2 - y1⟩ : ℂ)‖ ∧
      |h1 - (α + if (l1 = true ∧ α < 0) ∨ (l1 = false ∧ 0 < α) then 2 * Real.pi else 0)| ≤ 14 / 16777216 ∧
      |h2 - (α + if (l2 = true ∧ t.theta < α) ∨ (l2 = false ∧ α < t.theta) then 2 * Real.pi else 0)| ≤ 52 / 16777216 ∧
      (l1 = true → 0 ≤ h1) := by
  obtain ⟨-, x1, y1, h1, x2, y2, h2, l1, l2, t', X1, Y1, X2, Y2, phi, len, α, e, -, -, -, -, H, -, q1, q2, q3, q4, q5, -⟩ := returned m hm h ht hne
  exact ⟨x1, y1, h1, x2, y2, h2, l1, l2, t', X1, Y1, X2, Y2, phi, len, α, e, H.path, H.heading, H.tx, H.ty, H.x1, H.y1, H.x2,
    H.y2, q1, q2, q3, q4, q5⟩

/-- The hypotheses hold for a target that is ten radii ahead and for correctly rounded functions. -/
example : ∃ x1 y1 h1 x2 y2 h2 : ℝ, dubins Libm.rounded ⟨10, 2, 1⟩ 1 =
    .ok [⟨fin x1, fin y1, fin h1⟩, ⟨fin x2, fin y2, fin h2⟩, ⟨fin 10, fin 2, fin 1⟩] := by
  obtain ⟨x1, y1, h1, x2, y2, h2, _, _, _, _, _, _, _, _, _, _, e, -⟩ :=
    C105_path Libm.rounded rounded_accurate ⟨10, 2, 1⟩ 1 near_input.2 (by norm_num) (near_passes _)
  exact ⟨x1, y1, h1, x2, y2, h2, e⟩

/-- The chosen segment is the shortest up to rounding: every path without rounding whose arcs turn to the same side, or whose
segment is not lost in the rounding, has a segment at least as long up to 2^-17 of the squared distance. -/
theorem C105_shortest (m : Libm) (hm : m.Accurate) (t : AlMath.Pose2D) (r : ℝ) (h : DubinsInput t r) (ht : |t.theta| ≤ 8)
    {x1 y1 h1 x2 y2 h2 : ℝ} {p : Pose2D}
    (he : dubins m t r = .ok [⟨fin x1, fin y1, fin h1⟩, ⟨fin x2, fin y2, fin h2⟩, p])
    {l1' l2' : Bool} {X1 Y1 X2 Y2 phi len : ℝ} (hp : IsDubinsPath t r l1' l2' X1 Y1 X2 Y2 phi len)
    (hl : l1' = l2' ∨ 2 ^ (-17 : ℤ) * reach t ^ 2 < len ^ 2) :
    (x2 - x1) ^ 2 + (y2 - y1) ^ 2 ≤ len ^ 2 + 2 ^ (-17 : ℤ) * reach t ^ 2 := by
  obtain ⟨h4, x1', y1', h1', x2', y2', h2', l1, l2, t', _, _, _, _, _, _, α, e, r1, r2, r3, r4, H, hb, -⟩ :=
    returned m hm h ht (by rw [he]; simp)
  rw [he] at e
  simp only [Res.ok.injEq, List.cons.injEq, Pose2D.mk.injEq, fin.injEq] at e
  obtain ⟨⟨rfl, rfl, rfl⟩, ⟨rfl, rfl, rfl⟩, -⟩ := e
  have hlen := path_len hp
  rw [← gapVec_sq] at hlen
  have r0 := h.lo
  have T0 := reach_nonneg t
  have hT : 0 ≤ reach t ^ 2 := sq_nonneg _
  obtain ⟨L, k1, k2, -, -⟩ := cand_length h h4 r1 r2 r3 r4 H
  rcases cand_fin m hm h h4 l1' l2' with ⟨hn, hg, -⟩ | ⟨a1, b1, a2, b2, s', U1, V1, U2, V2, psi, len', e', q1, q2, q3, q4, H'⟩
  · exfalso
    have hl := hl.resolve_left hn
    rw [if_neg hn] at hlen
    have g := pow_le_pow_left₀ (norm_nonneg _) hg.le 2
    have hr : r ≤ 0.26 * reach t := by norm_num at h4 ⊢; linarith
    have : r * reach t ≤ 0.26 * reach t ^ 2 := by rw [sq, ← mul_assoc]; exact mul_le_mul_of_nonneg_right hr T0
    norm_num at hl g this
    nlinarith
  · obtain ⟨L', j1, -, j2, -⟩ := cand_length h h4 q1 q2 q3 q4 H'
    have := hb l1' l2'
    rw [e', j1, k1] at this
    have : L ≤ L' := not_lt.1 this
    rw [← hlen] at j2
    have i1 := (abs_le.1 k2).1
    have i2 := (abs_le.1 j2).2
    norm_num at i1 i2 ⊢
    linarith

/-- A straight path of length 10 between two arcs of length zero: the returned segment is not longer. -/
example {x1 y1 h1 x2 y2 h2 : ℝ} {p : Pose2D}
    (he : dubins Libm.rounded ⟨10, 0, 0⟩ 1 = .ok [⟨fin x1, fin y1, fin h1⟩, ⟨fin x2, fin y2, fin h2⟩, p]) :
    (x2 - x1) ^ 2 + (y2 - y1) ^ 2 ≤ 10 ^ 2 + 2 ^ (-17 : ℤ) * reach ⟨10, 0, 0⟩ ^ 2 := by
  obtain ⟨-, i⟩ := near_input
  refine C105_shortest Libm.rounded rounded_accurate ⟨10, 0, 0⟩ 1
    ⟨i.repX, Rep.zero, Rep.zero, i.repR, i.lo, i.hi, i.farX, by norm_num⟩ (by norm_num) he (l1' := true) (l2' := true)
    (X1 := 0) (Y1 := 0) (X2 := 10) (Y2 := 0) (phi := 0) ?_ (.inl rfl)
  refine ⟨?_, ?_, ?_, ?_, ?_⟩ <;> norm_num [turnCenter]

/-! ### A lost candidate -/

/-- Rounding half way between two numbers, to the even one. -/
theorem rnd_even {x : ℝ} {m k : ℤ} (h1 : (2 : ℝ) ^ k ≤ |x|) (h2 : |x| < 2 ^ (k + 1)) (hk : -126 ≤ k) (hm : Even m)
    (h : x / 2 ^ (k - 23) = m + 1 / 2) : rnd x = m * 2 ^ (k - 23) := by
  have hx : 0 < |x| := lt_of_lt_of_le (two_zpow_pos _) h1
  have hlog : Int.log 2 |x| = k := by
    have a1 : k ≤ Int.log 2 |x| := (Int.zpow_le_iff_le_log (by norm_num) hx).1 (by exact_mod_cast h1)
    have a2 : Int.log 2 |x| < k + 1 := (Int.lt_zpow_iff_log_lt (by norm_num) hx).1 (by exact_mod_cast h2)
    omega
  have hl : lastBit x = k - 23 := by
    rw [lastBit, hlog]
    exact max_eq_left (by omega)
  have hf : ⌊(m : ℝ) + 1 / 2⌋ = m := by
    rw [Int.floor_eq_iff]
    constructor <;> linarith
  have hr : Int.fract ((m : ℝ) + 1 / 2) = 1 / 2 := by rw [Int.fract, hf]; ring
  rw [rnd, hl, h, nearestInt, hr, hf, if_neg (lt_irrefl _), if_neg (lt_irrefl _), if_pos hm]

/-- The radius of the witness. Helper of the proofs. Not in /repo: specification. -/
noncomputable def lostR : ℝ := 12582918 / 8388608

/-- The target of the witness. Helper of the proofs. Not in /repo: specification. -/
noncomputable def lostT : AlMath.Pose2D := ⟨0, 4 * lostR, 0⟩

theorem lost_rep : Rep lostR ∧ Rep (4 * lostR) :=
  ⟨⟨12582918, -23, by norm_num, by norm_num, by norm_num, by norm_num [lostR]⟩,
   ⟨12582918, -21, by norm_num, by norm_num, by norm_num, by norm_num [lostR]⟩⟩

theorem lost_input : DubinsInput lostT lostR where
  repX := Rep.zero
  repY := lost_rep.2
  repTheta := Rep.zero
  repR := lost_rep.1
  lo := by norm_num [lostR]
  hi := by norm_num [lostR]
  farX := by norm_num [lostT]
  farY := by norm_num [lostT, lostR]

theorem lost_reach : reach lostT = 4 * lostR := by
  rw [reach, lostT]
  dsimp only
  rw [show (0 : ℝ) ^ 2 + (4 * lostR) ^ 2 = (4 * lostR) ^ 2 by ring, Real.sqrt_sq (by norm_num [lostR])]

/-- The square root of a square that has been rounded. -/
theorem sqrt_near {s b : ℝ} (k m : ℤ) (hk : -126 ≤ k) (h0 : 0 ≤ s) (hb : b = m * 2 ^ (k - 23)) (h1 : (2 : ℝ) ^ k ≤ b - 2 ^ (k - 24))
    (h2 : b + 2 ^ (k - 24) < 2 ^ (k + 1)) (hl : (b - 2 ^ (k - 24)) ^ 2 < s) (hu : s < (b + 2 ^ (k - 24)) ^ 2) : rnd (√s) = b := by
  have t0 : (0 : ℝ) < 2 ^ k := two_zpow_pos k
  have t1 : (0 : ℝ) < 2 ^ (k - 24) := two_zpow_pos _
  have a1 : b - 2 ^ (k - 24) < √s := Real.lt_sqrt_of_sq_lt hl
  have a2 : √s < b + 2 ^ (k - 24) := (Real.sqrt_lt' (by linarith)).2 hu
  have t2 : (2 : ℝ) ^ (k - 23) = 2 * 2 ^ (k - 24) := by
    rw [show k - 23 = (k - 24) + 1 by ring, zpow_add_one₀ two_ne_zero]; ring
  rw [rnd_eq (x := √s) (m := m) (k := k), hb]
  · rw [abs_of_nonneg (Real.sqrt_nonneg _)]; linarith
  · rw [abs_of_nonneg (Real.sqrt_nonneg _)]; linarith
  · exact hk
  · rw [div_sub' (two_zpow_pos _).ne', abs_div, abs_of_pos (two_zpow_pos (k - 23)), div_lt_iff₀ (two_zpow_pos _), mul_comm _ (m : ℝ),
      ← hb, t2, abs_lt]
    constructor <;> linarith

theorem zero_square : mul (fin 0) (fin 0) = fin 0 := by
  rw [mul, mul_zero, round_rep Rep.zero]

theorem lost_passes (m : Libm) : dubins m lostT lostR ≠ .throws := by
  have s1 : rnd (4 * lostR * (4 * lostR)) = (9437193 : ℤ) * 2 ^ ((5 : ℤ) - 23) := by
    apply rnd_eq <;> norm_num [lostR, abs_of_pos, abs_lt]
  have m1 : |4 * lostR * (4 * lostR)| ≤ 2 ^ 127 := by norm_num [lostR, abs_of_pos]
  have g := rnd_grid (4 * lostR * (4 * lostR))
  have e : sqrt (add (mul (fin 0) (fin 0)) (mul (fin (4 * lostR)) (fin (4 * lostR)))) = fin (4 * lostR) := by
    rw [zero_square, mul_fin m1, add, zero_add, round_rep (rnd_rep m1), s1, sqrt, if_neg (by norm_num),
      round_fin (by rw [abs_of_nonneg (Real.sqrt_nonneg _)]; exact Real.sqrt_le_iff.2 ⟨by norm_num, by norm_num⟩),
      sqrt_near (b := 4 * lostR) 2 12582918]
    all_goals norm_num [lostR]
  have e4 : mul (fin 4) (fin lostR) = fin (4 * lostR) := by rw [mul, round_rep lost_rep.2]
  unfold dubins getDubinsSolutions lostT
  dsimp only
  rw [e, e4, if_neg (show ¬ lt (fin (4 * lostR)) (fin (4 * lostR)) from lt_irrefl (4 * lostR))]
  simp

theorem lost_cand (m : Libm) (hs : m.sin (fin 0) = fin 0) (hc : m.cos (fin 0) = fin 1) :
    candF m lostT lostR true false = (⟨nan, nan, true⟩, ⟨nan, nan, false⟩) := by
  have s1 : rnd (3 * lostR) = (9437188 : ℤ) * 2 ^ ((2 : ℤ) - 23) := by
    apply rnd_even <;> norm_num [lostR, abs_of_pos]
    decide
  have b1 : sub (fin (4 * lostR)) (mul (fin 1) (fin lostR)) = fin (37748752 / 8388608) := by
    rw [mul, one_mul, round_rep lost_rep.1, sub_fin (by norm_num [lostR, abs_of_pos]), show 4 * lostR - lostR = 3 * lostR by ring, s1]
    norm_num
  have b2 : add (fin 0) (mul (fin 0) (fin lostR)) = fin 0 := by
    rw [mul, zero_mul, round_rep Rep.zero, add, zero_add, round_rep Rep.zero]
  have rb : Rep (25165834 / 8388608) := ⟨12582917, -22, by norm_num, by norm_num, by norm_num, by norm_num⟩
  have b3 : sub (fin lostR) (fin (37748752 / 8388608)) = fin (-(25165834 / 8388608)) := by
    rw [sub, neg, add, show lostR + -(37748752 / 8388608) = -(25165834 / 8388608) by norm_num [lostR], round_rep rb.neg]
  have b4 : sub (fin (37748752 / 8388608)) (fin lostR) = fin (25165834 / 8388608) := by
    rw [sub, neg, add, show 37748752 / 8388608 + -lostR = 25165834 / 8388608 by norm_num [lostR], round_rep rb]
  have b5 : sub (fin 0) (fin 0) = fin 0 := by rw [sub, neg, add, neg_zero, add_zero, round_rep Rep.zero]
  have s2 : rnd (-(25165834 / 8388608) * -(25165834 / 8388608)) = (9437192 : ℤ) * 2 ^ ((3 : ℤ) - 23) := by
    apply rnd_eq <;> norm_num [abs_of_pos, abs_lt]
  have m1 : |(-(25165834 / 8388608) * -(25165834 / 8388608) : ℝ)| ≤ 2 ^ 127 := by norm_num [abs_of_pos]
  have b6 : sqrt (add (mul (fin 0) (fin 0)) (mul (fin (-(25165834 / 8388608))) (fin (-(25165834 / 8388608))))) =
      fin (25165834 / 8388608) := by
    rw [zero_square, mul_fin m1, add, zero_add, round_rep (rnd_rep m1), s2, sqrt, if_neg (by norm_num),
      round_fin (by rw [abs_of_nonneg (Real.sqrt_nonneg _)]; exact Real.sqrt_le_iff.2 ⟨by norm_num, by norm_num⟩),
      sqrt_near (b := 25165834 / 8388608) 1 12582917]
    all_goals norm_num
  have s3 : rnd (lostR * 2 / (25165834 / 8388608)) = (8388609 : ℤ) * 2 ^ ((0 : ℤ) - 23) := by
    apply rnd_eq <;> norm_num [lostR, abs_of_pos, abs_lt]
  have b7 : mul (fin lostR) (fin 2) = fin (lostR * 2) := by
    rw [mul, round_rep ⟨12582918, -22, by norm_num, by norm_num, by norm_num, by norm_num [lostR]⟩]
  have b8 : div (fin (lostR * 2)) (fin (25165834 / 8388608)) = fin (8388609 / 8388608) := by
    rw [div, if_neg (by norm_num), round_fin (by norm_num [lostR, abs_of_pos]), s3]
    norm_num
  have b9 := sine_nan (c := 8388609 / 8388608) ⟨8388609, -23, by norm_num, by norm_num, by norm_num, by norm_num⟩ (by norm_num)
    (by norm_num)
  have l1 : ∀ x, mul x nan = nan := by intro x; cases x <;> rfl
  have l2 : ∀ x, mul nan x = nan := by intro x; cases x <;> rfl
  have l3 : ∀ x, add x nan = nan := by intro x; cases x <;> rfl
  have l4 : ∀ x, add nan x = nan := by intro x; cases x <;> rfl
  have l5 : ∀ x, sub x nan = nan := by intro x; cases x <;> rfl
  simp only [candF, startF, endF, xComputeTangent, lostT, hs, hc, b1, b2, b3, b5, b6, b7, b8, b9, l1, l2, l3, l4, l5, if_true,
    Bool.false_eq_true, if_false, show (true == false) = false from rfl]

/-- A target at exactly four radii, on the side: the circles of the path of two half turns touch each other. Rounding makes them
overlap, the square root of the code is NaN and its candidate is never taken. The returned segment is almost four radii long
although the segment of the path is a point, so C105_shortest does not hold without its last hypothesis. -/
theorem C105_lost (m : Libm) (hm : m.Accurate) (hs : m.sin (fin 0) = fin 0) (hc : m.cos (fin 0) = fin 1) :
    ∃ (t : AlMath.Pose2D) (r : ℝ), DubinsInput t r ∧ t.theta = 0 ∧ reach t = 4 * r ∧
      IsDubinsPath t r true false 0 (2 * r) 0 (2 * r) Real.pi 0 ∧
      ∃ x1 y1 h1 x2 y2 h2, dubins m t r = .ok [⟨fin x1, fin y1, fin h1⟩, ⟨fin x2, fin y2, fin h2⟩, ⟨fin t.x, fin t.y, fin t.theta⟩] ∧
        15.9 * r ^ 2 ≤ (x2 - x1) ^ 2 + (y2 - y1) ^ 2 := by
  refine ⟨lostT, lostR, lost_input, rfl, lost_reach, ?_, ?_⟩
  · refine ⟨?_, ?_, ?_, ?_, le_refl _⟩ <;> norm_num [turnCenter, lostT] <;> ring
  obtain ⟨h4, x1, y1, h1, x2, y2, h2, l1, l2, t', _, _, _, _, _, _, α, e, r1, r2, r3, r4, H, -, -, -, -, -, -, ec⟩ :=
    returned m hm lost_input (by norm_num [lostT]) (lost_passes m)
  refine ⟨x1, y1, h1, x2, y2, h2, e, ?_⟩
  obtain ⟨L, -, k1, k2, -⟩ := cand_length lost_input h4 r1 r2 r3 r4 H
  have hl : ¬ (l1 = true ∧ l2 = false) := by
    rintro ⟨rfl, rfl⟩
    rw [lost_cand m hs hc] at ec
    simp at ec
  have hg : 16 * lostR ^ 2 ≤ ‖gapVec lostT lostR l1 l2‖ ^ 2 - if l1 = l2 then 0 else 4 * lostR ^ 2 := by
    rw [gapVec_sq]
    cases l1 <;> cases l2 <;> simp [centerDistSq, turnCenter, lostT] at hl ⊢ <;> nlinarith [sq_nonneg lostR]
  rw [lost_reach] at k1 k2
  have i1 := (abs_le.1 k1).2
  have i2 := (abs_le.1 k2).1
  have := sq_nonneg lostR
  norm_num at i1 i2 ⊢
  linarith

/-- Correctly rounded functions meet the hypotheses. -/
example : Libm.rounded.sin (fin 0) = fin 0 ∧ Libm.rounded.cos (fin 0) = fin 1 := by
  constructor
  · show round (Real.sin 0) = fin 0
    rw [Real.sin_zero, round_rep Rep.zero]
  · show round (Real.cos 0) = fin 1
    rw [Real.cos_zero, round_rep Rep.one]

end AlMath.F32
