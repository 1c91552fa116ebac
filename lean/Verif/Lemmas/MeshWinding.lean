import Verif.Props.C43
import Mathlib.Analysis.Real.Pi.Bounds
import Mathlib.Analysis.SpecialFunctions.Trigonometric.Bounds

/-!
Winding of the polygons between two meridians (C106).
-/

namespace AlMath

namespace Spec

/-- Twice the area of a polygon projected along `n`, positive when it is counter-clockwise seen
from the side to which `n` points (shoelace formula). Not in /repo: specification. -/
def signedArea (l : List (ℝ × ℝ × ℝ)) (n : ℝ × ℝ × ℝ) : ℝ :=
  ((cyclicPairs l).map fun e => dot3 (cross3 e.1 e.2) n).sum

/-- The polygon is counter-clockwise seen from the side to which the normal of each of its
vertices points. Not in /repo: specification. -/
def FacesOut (m : Mesh) (f : List (List ℕ)) : Prop :=
  ∀ v ∈ f, 0 < signedArea (f.map (vpos m)) (vnormal m v)

end Spec

open Spec

/-- The point of a sphere of radius `r` centred at `(x, y, z)`: sine and cosine of the polar angle,
azimuth. Helper of the proofs. Not in /repo: specification. -/
noncomputable def polarPoint (r x y lam s c z : ℝ) : ℝ × ℝ × ℝ :=
  (x + r * s * Real.cos lam, y + r * s * Real.sin lam, z + r * c)

/-- The normal at `polarPoint`. Helper of the proofs. Not in /repo: specification. -/
noncomputable def polarNormal (lam s c : ℝ) : ℝ × ℝ × ℝ :=
  (s * Real.cos lam, s * Real.sin lam, c)

/-- Displacement of the second axis along the tangent at the azimuth. Helper of the proofs. Not in
/repo: specification. -/
noncomputable def along (x1 y1 x2 y2 lam : ℝ) : ℝ :=
  (y2 - y1) * Real.cos lam - (x2 - x1) * Real.sin lam

theorem signedArea_quad (a b c d n : ℝ × ℝ × ℝ) : signedArea [a, b, c, d] n =
    dot3 (cross3 a b) n + dot3 (cross3 b c) n + dot3 (cross3 c d) n + dot3 (cross3 d a) n := by
  simp [signedArea, cyclicPairs, List.rotate]
  ring

theorem signedArea_triangle (a b c n : ℝ × ℝ × ℝ) : signedArea [a, b, c] n =
    dot3 (cross3 a b) n + dot3 (cross3 b c) n + dot3 (cross3 c a) n := by
  simp [signedArea, cyclicPairs, List.rotate]
  ring

theorem cross3_self_dot (a n : ℝ × ℝ × ℝ) : dot3 (cross3 a a) n = 0 := by
  simp only [dot3, cross3]; ring

theorem signedArea_north (a b c n : ℝ × ℝ × ℝ) :
    signedArea [a, b, c] n = signedArea [a, a, b, c] n := by
  rw [signedArea_triangle, signedArea_quad, cross3_self_dot]; ring

theorem signedArea_south (a b c n : ℝ × ℝ × ℝ) :
    signedArea [a, b, c] n = signedArea [a, b, c, c] n := by
  rw [signedArea_triangle, signedArea_quad, cross3_self_dot]; ring

/-- The part of a meridian from `(s1, c1, z1)` to `(s2, c2, z2)` turns outwards, seen along
`(s, c)`. Helper of the proofs. Not in /repo: specification. -/
def Falls (r s1 c1 z1 s2 c2 z2 s c : ℝ) : Prop :=
  0 < (z1 + r * c1 - (z2 + r * c2)) * s + r * (s2 - s1) * c ∧
  |(z1 + r * c1 - (z2 + r * c2)) * s| ≤
    2 * ((z1 + r * c1 - (z2 + r * c2)) * s + r * (s2 - s1) * c)

/-- The second meridian is counter-clockwise from the first. Helper of the proofs. Not in /repo:
specification. -/
def Ahead (r x1 y1 l1 x2 y2 l2 : ℝ) : Prop :=
  ∀ R, 0 < R → R ≤ 2 * r →
    0 < along x1 y1 x2 y2 l1 + along x1 y1 x2 y2 l2 + R * Real.sin (l2 - l1) ∧
    4 * |along x1 y1 x2 y2 l1 - along x1 y1 x2 y2 l2| ≤
      along x1 y1 x2 y2 l1 + along x1 y1 x2 y2 l2 + R * Real.sin (l2 - l1)

theorem quad_pos_aux {U S G e w : ℝ} (hG : 0 < G) (hw : |w| ≤ 2 * G) (hU : 0 < U + S)
    (he : 4 * |e| ≤ U + S) : 0 < (U + S) * G + w * e ∧ 0 < (U + S) * G + w * -e := by
  have h1 : |w * e| ≤ 2 * G * ((U + S) / 4) := by
    rw [abs_mul]
    exact mul_le_mul hw (by linarith) (abs_nonneg _) (by linarith)
  have h2 := neg_abs_le (w * e)
  have h3 := le_abs_self (w * e)
  have h4 : 0 < (U + S) * G := by positivity
  constructor <;> nlinarith

theorem quad_out {r x1 y1 l1 x2 y2 l2 s1 c1 z1 s2 c2 z2 : ℝ} (hr : 0 < r)
    (ha : Ahead r x1 y1 l1 x2 y2 l2) (h1 : 0 ≤ s1) (h1' : s1 ≤ 1) (h2 : 0 ≤ s2) (h2' : s2 ≤ 1)
    (h12 : 0 < s1 + s2) {s c : ℝ} (hf : Falls r s1 c1 z1 s2 c2 z2 s c) (l : ℝ)
    (hl : l = l1 ∨ l = l2) :
    0 < signedArea [polarPoint r x2 y2 l2 s1 c1 z1, polarPoint r x1 y1 l1 s1 c1 z1,
      polarPoint r x1 y1 l1 s2 c2 z2, polarPoint r x2 y2 l2 s2 c2 z2] (polarNormal l s c) := by
  obtain ⟨hU, he⟩ := ha (r * (s1 + s2)) (by positivity) (by nlinarith)
  obtain ⟨hG, hw⟩ := hf
  have key := quad_pos_aux hG hw hU he
  rw [signedArea_quad]
  rcases hl with rfl | rfl
  · convert key.1 using 1
    rw [Real.sin_sub]
    simp only [polarPoint, polarNormal, dot3, cross3, along]
    ring
  · convert key.2 using 1
    rw [Real.sin_sub]
    simp only [polarPoint, polarNormal, dot3, cross3, along]
    ring

theorem falls_same {r s1 c1 s2 c2 : ℝ} (hr : 0 < r) (z : ℝ) (e1 : s1 ^ 2 + c1 ^ 2 = 1)
    (e2 : s2 ^ 2 + c2 ^ 2 = 1) (h1 : 0 ≤ s1) (h2 : 0 ≤ s2) (hs : 0 < s2 * c1 - c2 * s1)
    (hc : -(1 / 2) ≤ c1 * c2 + s1 * s2) :
    Falls r s1 c1 z s2 c2 z s1 c1 ∧ Falls r s1 c1 z s2 c2 z s2 c2 := by
  have k1 : (z + r * c1 - (z + r * c2)) * s1 + r * (s2 - s1) * c1 = r * (s2 * c1 - c2 * s1) := by ring
  have k2 : (z + r * c1 - (z + r * c2)) * s2 + r * (s2 - s1) * c2 = r * (s2 * c1 - c2 * s1) := by ring
  have hd : |c1 - c2| ≤ 2 * (s2 * c1 - c2 * s1) := by
    apply abs_le_of_sq_le_sq _ (by linarith)
    have hq : (s2 * c1 - c2 * s1) ^ 2 = 1 - (c1 * c2 + s1 * s2) ^ 2 := by
      linear_combination e1 * (s2 ^ 2 + c2 ^ 2) + e2
    have hdd : (c1 - c2) ^ 2 ≤ 2 - 2 * (c1 * c2 + s1 * s2) := by nlinarith [sq_nonneg (s1 - s2)]
    have hk : c1 * c2 + s1 * s2 ≤ 1 := by nlinarith [sq_nonneg (s1 - s2), sq_nonneg (c1 - c2)]
    nlinarith
  have b1 : s1 ≤ 1 := by nlinarith
  have b2 : s2 ≤ 1 := by nlinarith
  have ab : ∀ s, 0 ≤ s → s ≤ 1 → |(z + r * c1 - (z + r * c2)) * s| ≤ 2 * (r * (s2 * c1 - c2 * s1)) := by
    intro s h0 h1
    rw [show (z + r * c1 - (z + r * c2)) * s = r * (c1 - c2) * s by ring, abs_mul, abs_mul,
      abs_of_pos hr, abs_of_nonneg h0]
    have := abs_nonneg (c1 - c2)
    calc r * |c1 - c2| * s ≤ r * |c1 - c2| * 1 := by gcongr
      _ ≤ r * (2 * (s2 * c1 - c2 * s1)) * 1 := by gcongr
      _ = _ := by ring
  refine ⟨⟨?_, ?_⟩, ⟨?_, ?_⟩⟩
  · rw [k1]; positivity
  · rw [k1]; exact ab s1 h1 b1
  · rw [k2]; positivity
  · rw [k2]; exact ab s2 h2 b2

theorem falls_down {r s c h : ℝ} (hs : 0 < s) (hh : 0 < h) : Falls r s c h s c (-h) s c := by
  have e : (h + r * c - (-h + r * c)) * s + r * (s - s) * c = 2 * h * s := by ring
  have e' : (h + r * c - (-h + r * c)) * s = 2 * h * s := by ring
  unfold Falls
  rw [e, e', abs_of_pos (by positivity)]
  exact ⟨by positivity, by nlinarith [mul_pos hh hs]⟩

/-- Two meridians of one axis. -/
theorem ahead_turn {r x y l1 l2 : ℝ} (h : 0 < Real.sin (l2 - l1)) : Ahead r x y l1 x y l2 := by
  intro R h0 _
  simp only [along, sub_self, zero_mul, abs_zero, mul_zero, zero_add]
  have : 0 < R * Real.sin (l2 - l1) := by positivity
  exact ⟨this, this.le⟩

/-- Two meridians of one azimuth. -/
theorem ahead_slide {r x1 y1 x2 y2 l : ℝ} (h : 0 < along x1 y1 x2 y2 l) :
    Ahead r x1 y1 l x2 y2 l := by
  intro R h0 _
  simp only [sub_self, Real.sin_zero, abs_zero, mul_zero, add_zero]
  exact ⟨by linarith, by linarith⟩

/-- Two meridians whose azimuths are nearly the same. -/
theorem ahead_near {r x1 y1 l1 x2 y2 l2 d : ℝ} (hr : 0 < r) (hd : 0.000001 * r ≤ d)
    (h1 : |along x1 y1 x2 y2 l1 - d| ≤ 0.01 * d) (h2 : |along x1 y1 x2 y2 l2 - d| ≤ 0.01 * d)
    (hs : |Real.sin (l2 - l1)| ≤ 0.0000002) : Ahead r x1 y1 l1 x2 y2 l2 := by
  intro R h0 hR
  have hd0 : 0 < d := by nlinarith
  rw [abs_le] at h1 h2
  have hS : |R * Real.sin (l2 - l1)| ≤ 0.0000004 * r := by
    rw [abs_mul, abs_of_pos h0]
    calc R * |Real.sin (l2 - l1)| ≤ 2 * r * 0.0000002 := by gcongr
      _ = _ := by ring
  have := neg_abs_le (R * Real.sin (l2 - l1))
  have hlow : d ≤ along x1 y1 x2 y2 l1 + along x1 y1 x2 y2 l2 + R * Real.sin (l2 - l1) := by
    linarith [h1.1, h2.1]
  refine ⟨by linarith, le_trans ?_ hlow⟩
  have : |along x1 y1 x2 y2 l1 - along x1 y1 x2 y2 l2| ≤ 0.02 * d := by
    rw [abs_le]; constructor <;> linarith [h1.1, h1.2, h2.1, h2.2]
  linarith

theorem cos_157 : 0 ≤ Real.cos 1.57 ∧ Real.cos 1.57 ≤ 0.0008 := by
  have h1 := Real.pi_gt_d4
  have h2 := Real.pi_lt_d6
  constructor
  · exact Real.cos_nonneg_of_neg_pi_div_two_le_of_le (by linarith) (by linarith)
  · rw [← Real.sin_pi_div_two_sub]
    have := Real.sin_le (x := Real.pi / 2 - 1.57) (by linarith)
    linarith

/-- Number of vertices of a meridian. Not in /repo: specification. -/
noncomputable def meridianSize (hz : ℝ) (nb : ℕ) : ℕ :=
  open Classical in 2 * nb + (if hz = 0 then 1 else 2)

theorem meridianSize_pos (hz : ℝ) (nb : ℕ) : 0 < meridianSize hz nb := by
  unfold meridianSize; split_ifs <;> omega

/-- Polar angle of the `i`-th vertex of a meridian: that of the equator occurs twice when the box
has a height. Helper of the proofs. Not in /repo: specification. -/
noncomputable def merPhi (hz : ℝ) (nb i : ℕ) : ℝ :=
  open Classical in (if hz ≠ 0 ∧ nb + 1 ≤ i then (i : ℝ) else i + 1) * (3.14 / (2 * (nb + 1)))

/-- Height of the centre of the `i`-th vertex of a meridian. Helper of the proofs. Not in /repo:
specification. -/
def merZ (hz : ℝ) (nb i : ℕ) : ℝ := if nb + 1 ≤ i then -hz else hz

theorem merPhi_bounds {hz : ℝ} {nb i : ℕ} (hi : i < meridianSize hz nb) :
    0 < merPhi hz nb i ∧ merPhi hz nb i < Real.pi := by
  have hp := Real.pi_gt_d4
  have hn : (0 : ℝ) < nb + 1 := by positivity
  have key : ∀ k : ℝ, 0 < k → k ≤ 2 * nb + 1 → 0 < k * (3.14 / (2 * ((nb : ℝ) + 1))) ∧
      k * (3.14 / (2 * ((nb : ℝ) + 1))) < Real.pi := by
    intro k h0 h1
    refine ⟨by positivity, ?_⟩
    rw [← mul_div_assoc, div_lt_iff₀ (by positivity)]
    nlinarith
  unfold merPhi
  unfold meridianSize at hi
  by_cases h0 : hz = 0
  · rw [if_pos h0] at hi
    rw [if_neg (by simp [h0])]
    exact key _ (by positivity) (by exact_mod_cast (by omega : i + 1 ≤ 2 * nb + 1))
  · rw [if_neg h0] at hi
    split_ifs with h
    · exact key _ (by exact_mod_cast (by omega : 0 < i)) (by exact_mod_cast (by omega : i ≤ 2 * nb + 1))
    · have : i < nb + 1 := by
        by_contra hcon
        exact h ⟨h0, by omega⟩
      exact key _ (by positivity) (by exact_mod_cast (by omega : i + 1 ≤ 2 * nb + 1))

theorem mer_sin {hz : ℝ} {nb i : ℕ} (hi : i < meridianSize hz nb) :
    0 < Real.sin (merPhi hz nb i) :=
  Real.sin_pos_of_pos_of_lt_pi (merPhi_bounds hi).1 (merPhi_bounds hi).2

theorem dphi_bounds (nb : ℕ) : 0 < 3.14 / (2 * ((nb : ℝ) + 1)) ∧ 3.14 / (2 * ((nb : ℝ) + 1)) ≤ 1.57 := by
  have hn : (0 : ℝ) ≤ nb := by positivity
  refine ⟨by positivity, ?_⟩
  rw [div_le_iff₀ (by positivity)]
  nlinarith

theorem dphi_sin (nb : ℕ) : 0 < Real.sin (3.14 / (2 * ((nb : ℝ) + 1))) ∧
    0 ≤ Real.cos (3.14 / (2 * ((nb : ℝ) + 1))) := by
  have hp := Real.pi_gt_d4
  obtain ⟨h0, h1⟩ := dphi_bounds nb
  exact ⟨Real.sin_pos_of_pos_of_lt_pi h0 (by linarith),
    Real.cos_nonneg_of_neg_pi_div_two_le_of_le (by linarith) (by linarith)⟩

theorem falls_polar {r phi psi : ℝ} (hr : 0 < r) (z : ℝ) (h1 : 0 ≤ Real.sin phi)
    (h2 : 0 ≤ Real.sin psi) (hs : 0 < Real.sin (psi - phi)) (hc : -(1 / 2) ≤ Real.cos (psi - phi)) :
    Falls r (Real.sin phi) (Real.cos phi) z (Real.sin psi) (Real.cos psi) z (Real.sin phi) (Real.cos phi) ∧
    Falls r (Real.sin phi) (Real.cos phi) z (Real.sin psi) (Real.cos psi) z (Real.sin psi) (Real.cos psi) := by
  rw [Real.sin_sub] at hs
  rw [Real.cos_sub] at hc
  exact falls_same hr z (Real.sin_sq_add_cos_sq _) (Real.sin_sq_add_cos_sq _) h1 h2 hs
    (by linarith)

theorem falls_mer {hz r : ℝ} (h0z : 0 ≤ hz) (hr : 0 < r) {nb i : ℕ} (hi : i + 1 < meridianSize hz nb)
    (k : ℕ) (hk : k = i ∨ k = i + 1) :
    Falls r (Real.sin (merPhi hz nb i)) (Real.cos (merPhi hz nb i)) (merZ hz nb i)
      (Real.sin (merPhi hz nb (i + 1))) (Real.cos (merPhi hz nb (i + 1))) (merZ hz nb (i + 1))
      (Real.sin (merPhi hz nb k)) (Real.cos (merPhi hz nb k)) := by
  have s1 := mer_sin (hz := hz) (nb := nb) (i := i) (by omega)
  have s2 := mer_sin hi
  by_cases hmid : hz ≠ 0 ∧ i = nb
  · obtain ⟨h0, rfl⟩ := hmid
    have e : merPhi hz i (i + 1) = merPhi hz i i := by
      unfold merPhi
      rw [if_pos ⟨h0, le_rfl⟩, if_neg (by omega)]
      push_cast; ring
    have e1 : merZ hz i (i + 1) = -hz := if_pos le_rfl
    have e2 : merZ hz i i = hz := if_neg (by omega)
    have e3 : merPhi hz i k = merPhi hz i i := by
      rcases hk with rfl | rfl
      · rfl
      · exact e
    rw [e, e1, e2, e3]
    exact falls_down s1 (lt_of_le_of_ne h0z (Ne.symm h0))
  · have e : merZ hz nb (i + 1) = merZ hz nb i := by
      by_cases h0 : hz = 0
      · simp [merZ, h0]
      · have : i ≠ nb := fun h => hmid ⟨h0, h⟩
        unfold merZ
        split_ifs <;> first | rfl | omega
    have d : merPhi hz nb (i + 1) - merPhi hz nb i = 3.14 / (2 * ((nb : ℝ) + 1)) := by
      unfold merPhi
      by_cases h0 : hz = 0
      · rw [if_neg (by simp [h0]), if_neg (by simp [h0])]
        push_cast; ring
      · have : i ≠ nb := fun h => hmid ⟨h0, h⟩
        by_cases h : nb + 1 ≤ i
        · rw [if_pos ⟨h0, by omega⟩, if_pos ⟨h0, h⟩]
          push_cast; ring
        · rw [if_neg (by omega), if_neg (by omega)]
          push_cast; ring
    have := falls_polar hr (merZ hz nb i) s1.le s2.le (by rw [d]; exact (dphi_sin nb).1)
      (by rw [d]; linarith [(dphi_sin nb).2])
    rw [e]
    rcases hk with rfl | rfl
    · exact this.1
    · exact this.2

theorem falls_north {hz r : ℝ} (hr : 0 < r) (nb : ℕ) :
    Falls r 0 1 hz (Real.sin (merPhi hz nb 0)) (Real.cos (merPhi hz nb 0)) (merZ hz nb 0) 0 1 ∧
    Falls r 0 1 hz (Real.sin (merPhi hz nb 0)) (Real.cos (merPhi hz nb 0)) (merZ hz nb 0)
      (Real.sin (merPhi hz nb 0)) (Real.cos (merPhi hz nb 0)) := by
  have e : merZ hz nb 0 = hz := if_neg (by omega)
  have d : merPhi hz nb 0 = 3.14 / (2 * ((nb : ℝ) + 1)) := by
    unfold merPhi
    rw [if_neg (by omega)]
    push_cast; ring
  have := falls_polar (phi := 0) (psi := merPhi hz nb 0) hr hz (by simp)
    (mer_sin (meridianSize_pos hz nb)).le (by rw [sub_zero, d]; exact (dphi_sin nb).1)
    (by rw [sub_zero, d]; linarith [(dphi_sin nb).2])
  rw [Real.sin_zero, Real.cos_zero] at this
  rw [e]
  exact this

theorem falls_south {hz r : ℝ} (hr : 0 < r) (nb : ℕ) (k : ℕ) (hk : k + 1 = meridianSize hz nb) :
    Falls r (Real.sin (merPhi hz nb k)) (Real.cos (merPhi hz nb k)) (merZ hz nb k) 0 (-1) (-hz)
      (Real.sin (merPhi hz nb k)) (Real.cos (merPhi hz nb k)) ∧
    Falls r (Real.sin (merPhi hz nb k)) (Real.cos (merPhi hz nb k)) (merZ hz nb k) 0 (-1) (-hz) 0 (-1) := by
  have s1 := mer_sin (hz := hz) (nb := nb) (i := k) (by omega)
  have b1 := merPhi_bounds (hz := hz) (nb := nb) (i := k) (by omega)
  have e : merZ hz nb k = -hz := by
    unfold merZ
    unfold meridianSize at hk
    by_cases h0 : hz = 0
    · simp [h0]
    · rw [if_neg h0] at hk
      rw [if_pos (by omega)]
  have d : merPhi hz nb k = (2 * nb + 1) * (3.14 / (2 * ((nb : ℝ) + 1))) := by
    unfold merPhi
    unfold meridianSize at hk
    by_cases h0 : hz = 0
    · rw [if_pos h0] at hk
      have : k = 2 * nb := by omega
      rw [if_neg (by simp [h0]), this]
      push_cast; ring
    · rw [if_neg h0] at hk
      have : k = 2 * nb + 1 := by omega
      rw [if_pos ⟨h0, by omega⟩, this]
      push_cast; ring
  have h157 : 1.57 ≤ merPhi hz nb k := by
    have hn : (0 : ℝ) ≤ nb := by positivity
    rw [d, ← mul_div_assoc, le_div_iff₀ (by positivity)]
    nlinarith
  have hc : Real.cos (merPhi hz nb k) ≤ 0.0008 :=
    le_trans (Real.cos_le_cos_of_nonneg_of_le_pi (by norm_num) b1.2.le h157) cos_157.2
  have := falls_polar (phi := merPhi hz nb k) (psi := Real.pi) hr (-hz) s1.le (by simp)
    (by rw [Real.sin_pi_sub]; exact s1) (by rw [Real.cos_pi_sub]; linarith)
  rw [Real.sin_pi, Real.cos_pi] at this
  rw [e]
  exact this

end AlMath
