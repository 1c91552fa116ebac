import Mathlib.Analysis.Convex.Segment
import Verif.Model.Foot

/-!
C33: intersection of segments.
-/

namespace AlMath

namespace Spec

/-- A point as a pair of coordinates (fields of almath/types/alposition2d.h). -/
def _root_.AlMath.Position2D.pt (p : Position2D) : ℝ × ℝ := (p.x, p.y)

/-- The segment between two points. Not in /repo: specification. -/
def seg (a b : Position2D) : Set (ℝ × ℝ) := segment ℝ a.pt b.pt

/-- Cross product of the directions of two segments. Not in /repo: specification. -/
noncomputable def crossDir (a1 a2 b1 b2 : Position2D) : ℝ :=
  (a2.x - a1.x) * (b2.y - b1.y) - (a2.y - a1.y) * (b2.x - b1.x)

/-- The two points differ by at least 1e-5 along x or along y. Not in /repo:
specification. -/
def NotTiny (a b : Position2D) : Prop := 0.00001 ≤ |b.x - a.x| ∨ 0.00001 ≤ |b.y - a.y|

end Spec

open Spec

theorem mem_seg (a b : Position2D) (z : ℝ × ℝ) : z ∈ seg a b ↔
    ∃ s : ℝ, 0 ≤ s ∧ s ≤ 1 ∧ z.1 = a.x + s * (b.x - a.x) ∧ z.2 = a.y + s * (b.y - a.y) := by
  unfold seg Position2D.pt segment
  constructor
  · rintro ⟨s, t, hs, ht, hst, rfl⟩
    refine ⟨t, ht, by linarith, ?_, ?_⟩ <;> simp
    · rw [show s = 1 - t by linarith]; ring
    · rw [show s = 1 - t by linarith]; ring
  · rintro ⟨t, h0, h1, e1, e2⟩
    refine ⟨1 - t, t, by linarith, h0, by ring, ?_⟩
    ext <;> simp
    · rw [e1]; ring
    · rw [e2]; ring

/-- Outcome of the function in terms of the two parameters. -/
theorem intersection_eq (a1 a2 b1 b2 c : Position2D) :
    let r := intersectionSegment2D a1 a2 b1 b2 c
    (r.1 = false ∧ r.2 = c ∨ r.1 = true ∧ ∃ s t : ℝ, 0 ≤ s ∧ s ≤ 1 ∧ 0 ≤ t ∧ t ≤ 1 ∧
      r.2.x = a1.x + s * (a2.x - a1.x) ∧ r.2.y = a1.y + s * (a2.y - a1.y) ∧
      r.2.x = b1.x + t * (b2.x - b1.x) ∧ r.2.y = b1.y + t * (b2.y - b1.y)) ∧
    (r.1 = true ↔ 0.00001 ≤ |crossDir a1 a2 b1 b2| ∧ NotTiny a1 a2 ∧
      (seg a1 a2 ∩ seg b1 b2).Nonempty) := by
  intro r
  have hden : |crossDir a1 a2 b1 b2| =
      |(b2.x - b1.x) * (a2.y - a1.y) - (a2.x - a1.x) * (b2.y - b1.y)| := by
    unfold crossDir; rw [← abs_neg]; congr 1; ring
  have hr : r = intersectionSegment2D a1 a2 b1 b2 c := rfl
  clear_value r
  unfold intersectionSegment2D xIntersectionSegment2D at hr
  dsimp only at hr
  rw [hden]
  set gxA := a2.x - a1.x with hgxA
  set gyA := a2.y - a1.y with hgyA
  set gxB := b2.x - b1.x with hgxB
  set gyB := b2.y - b1.y with hgyB
  -- common points, in terms of the parameters
  have hne : (seg a1 a2 ∩ seg b1 b2).Nonempty ↔ ∃ s t : ℝ, 0 ≤ s ∧ s ≤ 1 ∧ 0 ≤ t ∧ t ≤ 1 ∧
      a1.x + s * gxA = b1.x + t * gxB ∧ a1.y + s * gyA = b1.y + t * gyB := by
    constructor
    · rintro ⟨z, hz1, hz2⟩
      obtain ⟨s, s0, s1, e1, e2⟩ := (mem_seg _ _ _).1 hz1
      obtain ⟨t, t0, t1, e3, e4⟩ := (mem_seg _ _ _).1 hz2
      exact ⟨s, t, s0, s1, t0, t1, by rw [← e1, ← e3], by rw [← e2, ← e4]⟩
    · rintro ⟨s, t, s0, s1, t0, t1, e1, e2⟩
      exact ⟨(a1.x + s * gxA, a1.y + s * gyA), (mem_seg _ _ _).2 ⟨s, s0, s1, rfl, rfl⟩,
        (mem_seg _ _ _).2 ⟨t, t0, t1, e1, e2⟩⟩
  rw [hne]
  unfold NotTiny
  rw [← hgxA, ← hgyA]
  clear_value gxA gyA gxB gyB
  by_cases h1 : |gxB * gyA - gxA * gyB| < 0.00001
  · rw [if_pos h1] at hr
    subst hr
    refine ⟨Or.inl ⟨rfl, rfl⟩, ?_⟩
    simp only [Bool.false_eq_true, false_iff]
    rintro ⟨h, -⟩
    exact absurd h1 (not_lt.2 h)
  rw [if_neg h1] at hr
  have hd : gxB * gyA - gxA * gyB ≠ 0 := by
    intro h0; rw [h0, abs_zero] at h1; norm_num at h1
  -- a common point has the computed second parameter
  have ht : ∀ s t : ℝ, a1.x + s * gxA = b1.x + t * gxB → a1.y + s * gyA = b1.y + t * gyB →
      t = (gyA * (a1.x - b1.x) + gxA * (b1.y - a1.y)) / (gxB * gyA - gxA * gyB) := by
    intro s t e1 e2
    rw [eq_div_iff hd]
    linear_combination gyA * (-e1) + gxA * e2
  set rB := (gyA * (a1.x - b1.x) + gxA * (b1.y - a1.y)) / (gxB * gyA - gxA * gyB) with hrB
  have hrel : rB * (gxB * gyA - gxA * gyB) = gyA * (a1.x - b1.x) + gxA * (b1.y - a1.y) := by
    rw [hrB, div_mul_cancel₀ _ hd]
  clear_value rB
  by_cases h2 : rB < 0 ∨ rB > 1
  · rw [if_pos h2] at hr
    subst hr
    refine ⟨Or.inl ⟨rfl, rfl⟩, ?_⟩
    simp only [Bool.false_eq_true, false_iff]
    rintro ⟨-, -, s, t, -, -, t0, t1, e1, e2⟩
    have := ht s t e1 e2
    rcases h2 with h2 | h2 <;> linarith
  rw [if_neg h2] at hr
  push Not at h2
  by_cases h3 : |gxA| < 0.00001 ∧ |gyA| < 0.00001
  · rw [if_pos h3] at hr
    subst hr
    refine ⟨Or.inl ⟨rfl, rfl⟩, ?_⟩
    simp only [Bool.false_eq_true, false_iff]
    rintro ⟨-, h | h, -⟩
    · exact absurd h3.1 (not_lt.2 h)
    · exact absurd h3.2 (not_lt.2 h)
  rw [if_neg h3] at hr
  have hnt : 0.00001 ≤ |gxA| ∨ 0.00001 ≤ |gyA| := by
    by_contra hn; push Not at hn; exact h3 hn
  -- the first parameter satisfies both equations
  obtain ⟨rA, hrA, k1, k2⟩ : ∃ rA, rA = (if |gxA| < 0.00001 then (b1.y - a1.y + rB * gyB) / gyA
      else (b1.x - a1.x + rB * gxB) / gxA) ∧
      rA * gxA = b1.x - a1.x + rB * gxB ∧ rA * gyA = b1.y - a1.y + rB * gyB := by
    refine ⟨_, rfl, ?_⟩
    split_ifs with h4
    · have hy : gyA ≠ 0 := by
        intro h0; rcases hnt with h | h
        · linarith
        · rw [h0, abs_zero] at h; norm_num at h
      constructor
      · rw [div_mul_eq_mul_div, div_eq_iff hy]; linear_combination -hrel
      · rw [div_mul_cancel₀ _ hy]
    · have hx : gxA ≠ 0 := by
        intro h0; rw [h0, abs_zero] at h4; norm_num at h4
      constructor
      · rw [div_mul_cancel₀ _ hx]
      · rw [div_mul_eq_mul_div, div_eq_iff hx]; linear_combination hrel
  rw [← hrA] at hr
  have hs : ∀ s t : ℝ, a1.x + s * gxA = b1.x + t * gxB → a1.y + s * gyA = b1.y + t * gyB →
      s = rA := by
    intro s t e1 e2
    have et := ht s t e1 e2
    subst et
    have f1 : (s - rA) * gxA = 0 := by linear_combination e1 - k1
    have f2 : (s - rA) * gyA = 0 := by linear_combination e2 - k2
    rcases mul_eq_zero.1 f1 with f1 | f1
    · linarith
    · rcases mul_eq_zero.1 f2 with f2 | f2
      · linarith
      · rw [f1, f2] at hd; simp at hd
  by_cases h4 : rA < 0 ∨ rA > 1
  · rw [if_pos h4] at hr
    subst hr
    refine ⟨Or.inl ⟨rfl, rfl⟩, ?_⟩
    simp only [Bool.false_eq_true, false_iff]
    rintro ⟨-, -, s, t, s0, s1, -, -, e1, e2⟩
    have := hs s t e1 e2
    rcases h4 with h4 | h4 <;> linarith
  rw [if_neg h4] at hr
  push Not at h4
  subst hr
  refine ⟨Or.inr ⟨rfl, rA, rB, h4.1, h4.2, h2.1, h2.2, rfl, rfl, ?_, ?_⟩, ?_⟩
  · simp only; linarith
  · simp only; linarith
  · simp only [true_iff]
    exact ⟨not_lt.1 h1, hnt, rA, rB, h4.1, h4.2, h2.1, h2.2, by linarith, by linarith⟩

/-- When the answer is true, the returned point is the one common point of the two
segments; when it is false, the output is left as it was. -/
theorem C33_sound (a1 a2 b1 b2 c : Position2D) :
    ((intersectionSegment2D a1 a2 b1 b2 c).1 = true →
      seg a1 a2 ∩ seg b1 b2 = {(intersectionSegment2D a1 a2 b1 b2 c).2.pt}) ∧
    ((intersectionSegment2D a1 a2 b1 b2 c).1 = false →
      (intersectionSegment2D a1 a2 b1 b2 c).2 = c) := by
  obtain ⟨h1, h2⟩ := intersection_eq a1 a2 b1 b2 c
  constructor
  · intro ht
    rcases h1 with ⟨hf, -⟩ | ⟨-, s, t, s0, s1, t0, t1, e1, e2, e3, e4⟩
    · rw [ht] at hf; cases hf
    obtain ⟨hd, -⟩ := h2.1 ht
    have hd0 : crossDir a1 a2 b1 b2 ≠ 0 := by
      intro h0; rw [h0, abs_zero] at hd; norm_num at hd
    ext z
    rw [Set.mem_inter_iff, mem_seg, mem_seg, Set.mem_singleton_iff]
    constructor
    · rintro ⟨⟨s', -, -, f1, f2⟩, ⟨t', -, -, f3, f4⟩⟩
      have hs : (s' - s) * crossDir a1 a2 b1 b2 = 0 := by
        have g1 : (s' - s) * (a2.x - a1.x) = (t' - t) * (b2.x - b1.x) := by
          linear_combination (-1 : ℝ) * f1 + f3 - e3 + e1
        have g2 : (s' - s) * (a2.y - a1.y) = (t' - t) * (b2.y - b1.y) := by
          linear_combination (-1 : ℝ) * f2 + f4 - e4 + e2
        unfold crossDir
        linear_combination (b2.y - b1.y) * g1 - (b2.x - b1.x) * g2
      have hs := (mul_eq_zero.1 hs).resolve_right hd0
      have hss : s' = s := by linarith
      subst hss
      ext
      · rw [f1]; exact e1.symm
      · rw [f2]; exact e2.symm
    · rintro rfl
      exact ⟨⟨s, s0, s1, e1, e2⟩, ⟨t, t0, t1, e3, e4⟩⟩
  · intro hf
    rcases h1 with ⟨-, hc⟩ | ⟨ht, -⟩
    · exact hc
    · rw [hf] at ht; cases ht

/-- The answer is true exactly if the segments have a common point, the cross product of
their directions is at least 1e-5, and the first segment is not tiny. -/
theorem C33_exact (a1 a2 b1 b2 c : Position2D) :
    (intersectionSegment2D a1 a2 b1 b2 c).1 = true ↔ 0.00001 ≤ |crossDir a1 a2 b1 b2| ∧
      NotTiny a1 a2 ∧ (seg a1 a2 ∩ seg b1 b2).Nonempty :=
  (intersection_eq a1 a2 b1 b2 c).2

example : (intersectionSegment2D ⟨0, 0⟩ ⟨2, 0⟩ ⟨1, -1⟩ ⟨1, 1⟩ ⟨0, 0⟩).1 = true := by
  rw [C33_exact]
  refine ⟨by norm_num [crossDir], Or.inl (by norm_num), (1, 0), ?_, ?_⟩
  · exact (mem_seg _ _ _).2 ⟨1 / 2, by norm_num, by norm_num, by norm_num, by norm_num⟩
  · exact (mem_seg _ _ _).2 ⟨1 / 2, by norm_num, by norm_num, by norm_num, by norm_num⟩

/-- The tolerance is on the product of the lengths, so two perpendicular segments of three
millimetres crossing in their middle are reported as not intersecting. -/
theorem C33_short_missed : ∃ a1 a2 b1 b2 : Position2D,
    (a2.x - a1.x) * (b2.x - b1.x) + (a2.y - a1.y) * (b2.y - b1.y) = 0 ∧
    a1.distance a2 = 0.003 ∧ b1.distance b2 = 0.003 ∧
    (0, 0) ∈ seg a1 a2 ∩ seg b1 b2 ∧ ∀ c, (intersectionSegment2D a1 a2 b1 b2 c).1 = false := by
  refine ⟨⟨-0.0015, 0⟩, ⟨0.0015, 0⟩, ⟨0, -0.0015⟩, ⟨0, 0.0015⟩, by norm_num, ?_, ?_, ?_, ?_⟩
  · unfold Position2D.distance Position2D.distanceSquared
    rw [Real.sqrt_eq_iff_mul_self_eq (by norm_num) (by norm_num)]; norm_num
  · unfold Position2D.distance Position2D.distanceSquared
    rw [Real.sqrt_eq_iff_mul_self_eq (by norm_num) (by norm_num)]; norm_num
  · exact ⟨(mem_seg _ _ _).2 ⟨1 / 2, by norm_num, by norm_num, by norm_num, by norm_num⟩,
      (mem_seg _ _ _).2 ⟨1 / 2, by norm_num, by norm_num, by norm_num, by norm_num⟩⟩
  · intro c
    by_contra hn
    rw [Bool.not_eq_false, C33_exact] at hn
    have := hn.1
    norm_num [crossDir, abs_of_pos] at this

/-- Overlapping parallel segments are reported as not intersecting, as are all pairs with a
cross product below the tolerance. -/
theorem C33_parallel (a1 a2 b1 b2 c : Position2D) (h : crossDir a1 a2 b1 b2 = 0) :
    (intersectionSegment2D a1 a2 b1 b2 c).1 = false := by
  by_contra hn
  rw [Bool.not_eq_false, C33_exact] at hn
  have := hn.1
  rw [h] at this
  norm_num at this

/-- The answer does not depend on the order of the two segments if neither is tiny; a tiny
first segment is never reported. -/
theorem C33_symmetric (a1 a2 b1 b2 c c' : Position2D) :
    (NotTiny a1 a2 → NotTiny b1 b2 → (intersectionSegment2D a1 a2 b1 b2 c).1 =
      (intersectionSegment2D b1 b2 a1 a2 c').1) ∧
    (¬ NotTiny a1 a2 → (intersectionSegment2D a1 a2 b1 b2 c).1 = false) := by
  have hc : |crossDir b1 b2 a1 a2| = |crossDir a1 a2 b1 b2| := by
    unfold crossDir; rw [← abs_neg]; congr 1; ring
  constructor
  · intro ha hb
    rw [Bool.eq_iff_iff, C33_exact, C33_exact, hc, Set.inter_comm]
    simp [ha, hb]
  · intro hn
    by_contra h
    rw [Bool.not_eq_false, C33_exact] at h
    exact hn h.2.1

example : NotTiny ⟨0, 0⟩ ⟨1, 0⟩ := Or.inl (by norm_num)

/-- That asymmetry is real. -/
theorem C33_not_symmetric : ∃ a1 a2 b1 b2 : Position2D, ∀ c,
    (intersectionSegment2D a1 a2 b1 b2 c).1 = false ∧
    (intersectionSegment2D b1 b2 a1 a2 c).1 = true := by
  refine ⟨⟨0, -0.000004⟩, ⟨0, 0.000004⟩, ⟨-1, 0⟩, ⟨1, 0⟩, fun c => ⟨?_, ?_⟩⟩
  · refine (C33_symmetric _ _ _ _ c c).2 ?_
    rintro (h | h)
    · norm_num at h
    · norm_num [abs_of_pos] at h
  · rw [C33_exact]
    refine ⟨by norm_num [crossDir, abs_of_pos], Or.inl (by norm_num), (0, 0), ?_, ?_⟩
    · exact (mem_seg _ _ _).2 ⟨1 / 2, by norm_num, by norm_num, by norm_num, by norm_num⟩
    · exact (mem_seg _ _ _).2 ⟨1 / 2, by norm_num, by norm_num, by norm_num, by norm_num⟩

end AlMath
