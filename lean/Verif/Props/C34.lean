import Mathlib.Analysis.Convex.Topology
import Mathlib.Analysis.LocallyConvex.Separation
import Mathlib.Topology.Order.Lattice
import Verif.Props.C33

/-!
C34: collision test of two boxes.
-/

namespace AlMath

namespace Spec

/-- `u v` is a side of the closed polygon with the given vertices: consecutive vertices, or
the last and the first. Not in /repo: specification. -/
def IsSide (box : List Position2D) (u v : Position2D) : Prop :=
  ∃ i, i < box.length ∧ box[i]? = some u ∧ box[(i + 1) % box.length]? = some v

/-- Twice the signed area of the triangle `u v z`: negative if `z` is on the right of
the line from `u` to `v`. Not in /repo: specification. -/
def side (u v : Position2D) (z : ℝ × ℝ) : ℝ :=
  (v.x - u.x) * (z.2 - u.y) - (v.y - u.y) * (z.1 - u.x)

/-- The smallest convex set containing the vertices. Not in /repo: specification. -/
def hull (box : List Position2D) : Set (ℝ × ℝ) := convexHull ℝ {z | ∃ p ∈ box, z = p.pt}

/-- Convex polygon with vertices listed clockwise: no vertex is on the left of a side, and
every corner is a proper right turn. Not in /repo: specification. -/
def IsConvexCW (box : List Position2D) : Prop :=
  (∀ u v, IsSide box u v → ∀ p ∈ box, side u v p.pt ≤ 0) ∧
  (∀ u v w, IsSide box u v → IsSide box v w → u ≠ v → v ≠ w → side u v w.pt < 0) ∧
  (∀ u v, IsSide box u v → u ≠ v)

end Spec

open Spec

/-- Vertices with cyclic numbering. -/
noncomputable def vtx (box : List Position2D) (i : ℕ) : Position2D :=
  box.getD (i % box.length) Position2D.zero

theorem vtx_get {box : List Position2D} (h : 0 < box.length) (i : ℕ) :
    box[i % box.length]? = some (vtx box i) := by
  unfold vtx
  rw [List.getD, List.getElem?_eq_getElem (Nat.mod_lt _ h), Option.getD_some]

theorem vtx_mem {box : List Position2D} (h : 0 < box.length) (i : ℕ) : vtx box i ∈ box :=
  List.mem_of_getElem? (vtx_get h i)

theorem isSide_vtx {box : List Position2D} (h : 0 < box.length) (i : ℕ) :
    IsSide box (vtx box i) (vtx box (i + 1)) := by
  refine ⟨i % box.length, Nat.mod_lt _ h, vtx_get h i, ?_⟩
  rw [Nat.mod_add_mod]; exact vtx_get h (i + 1)

theorem isSide_iff {box : List Position2D} (u v : Position2D) :
    IsSide box u v ↔ ∃ i, i < box.length ∧ u = vtx box i ∧ v = vtx box (i + 1) := by
  constructor
  · rintro ⟨i, hi, h1, h2⟩
    have h0 : 0 < box.length := by omega
    refine ⟨i, hi, ?_, ?_⟩
    · have := vtx_get h0 i
      rw [Nat.mod_eq_of_lt hi, h1] at this
      exact Option.some.inj this
    · have := vtx_get h0 (i + 1)
      rw [h2] at this
      exact Option.some.inj this
  · rintro ⟨i, hi, rfl, rfl⟩
    exact isSide_vtx (by omega) i

theorem vtx_period {box : List Position2D} (i : ℕ) : vtx box (i + box.length) = vtx box i := by
  unfold vtx; rw [Nat.add_mod_right]

theorem read_some {α : Type} {l : List α} {i : ℕ} {a : α} (h : l[i]? = some a) :
    Res.read l i = .ok a := by
  unfold Res.read; rw [h]

/-! ### What the loops compute -/

theorem insideLoop_eq (box : List Position2D) (p : Position2D) (is : List ℕ)
    (h : ∀ i ∈ is, i < box.length) :
    ∃ r, insideLoop box p is = .ok r ∧
      (r = true ↔ ∀ i ∈ is, side (vtx box i) (vtx box (i + 1)) p.pt < 0) := by
  induction is with
  | nil => exact ⟨true, rfl, by simp⟩
  | cons i is ih =>
    have hi := h i (by simp)
    have h0 : 0 < box.length := by omega
    have e1 : Res.read box i = .ok (vtx box i) := by
      apply read_some
      have := vtx_get h0 i
      rwa [Nat.mod_eq_of_lt hi] at this
    have e2 : Res.read box (if i + 1 = box.length then 0 else i + 1) = .ok (vtx box (i + 1)) := by
      apply read_some
      rw [← vtx_get h0 (i + 1)]
      split_ifs with hc
      · rw [hc, Nat.mod_self]
      · rw [Nat.mod_eq_of_lt (by omega)]
    unfold insideLoop
    dsimp only
    rw [e2, e1]
    simp only [Res.bind_ok]
    have hs : ((vtx box (i + 1)).x - (vtx box i).x) * (p.y - (vtx box i).y) -
        ((vtx box (i + 1)).y - (vtx box i).y) * (p.x - (vtx box i).x) =
        side (vtx box i) (vtx box (i + 1)) p.pt := rfl
    rw [hs]
    split_ifs with hc
    · refine ⟨false, rfl, ?_⟩
      simp only [Bool.false_eq_true, false_iff, not_forall]
      exact ⟨i, by simp, not_lt.2 hc⟩
    · obtain ⟨r, hr, hr'⟩ := ih fun j hj => h j (by simp [hj])
      refine ⟨r, hr, ?_⟩
      rw [hr']
      rw [ge_iff_le, not_le] at hc
      simp [hc]

theorem inside_eq (box : List Position2D) (p : Position2D) :
    ∃ r, xPointsInsideBox box p = .ok r ∧
      (r = true ↔ ∀ u v, IsSide box u v → side u v p.pt < 0) := by
  obtain ⟨r, hr, hr'⟩ := insideLoop_eq box p (List.range box.length) (by simp)
  refine ⟨r, hr, ?_⟩
  rw [hr']
  constructor
  · intro h u v huv
    obtain ⟨i, hi, rfl, rfl⟩ := (isSide_iff u v).1 huv
    exact h i (by simpa using hi)
  · intro h i hi
    exact h _ _ ((isSide_iff _ _).2 ⟨i, by simpa using hi, rfl, rfl⟩)

/-- Two sides are reported as intersecting. -/
def SidesMeet (a1 a2 b1 b2 : Position2D) : Prop :=
  (intersectionSegment2D a1 a2 b1 b2 Position2D.zero).1 = true

theorem sidesLoopB_eq (a b : List Position2D) (ia : ℕ) (ha : ia < a.length) (ibs : List ℕ)
    (h : ∀ i ∈ ibs, i < b.length) :
    ∃ r, sidesLoopB a b ia ibs = .ok r ∧
      (r = true ↔ ∃ ib ∈ ibs, SidesMeet (vtx a ia) (vtx a (ia + 1)) (vtx b ib)
        (vtx b (ib + 1))) := by
  induction ibs with
  | nil => exact ⟨false, rfl, by simp⟩
  | cons ib ibs ih =>
    have hb := h ib (by simp)
    have ha0 : 0 < a.length := by omega
    have hb0 : 0 < b.length := by omega
    have e1 : Res.read a ia = .ok (vtx a ia) := by
      apply read_some
      have := vtx_get ha0 ia
      rwa [Nat.mod_eq_of_lt ha] at this
    have e2 : Res.read b ib = .ok (vtx b ib) := by
      apply read_some
      have := vtx_get hb0 ib
      rwa [Nat.mod_eq_of_lt hb] at this
    unfold sidesLoopB
    rw [e1, e2, read_some (vtx_get ha0 (ia + 1)), read_some (vtx_get hb0 (ib + 1))]
    simp only [Res.bind_ok]
    split_ifs with hc
    · refine ⟨true, rfl, ?_⟩
      simp only [true_iff]
      exact ⟨ib, by simp, hc⟩
    · obtain ⟨r, hr, hr'⟩ := ih fun j hj => h j (by simp [hj])
      refine ⟨r, hr, ?_⟩
      rw [hr']
      have hc' : ¬ SidesMeet (vtx a ia) (vtx a (ia + 1)) (vtx b ib) (vtx b (ib + 1)) := hc
      simp [hc']

theorem sidesLoopA_eq (a b : List Position2D) (ias : List ℕ) (h : ∀ i ∈ ias, i < a.length) :
    ∃ r, sidesLoopA a b ias = .ok r ∧
      (r = true ↔ ∃ ia ∈ ias, ∃ ib, ib < b.length ∧ SidesMeet (vtx a ia) (vtx a (ia + 1)) (vtx b ib)
        (vtx b (ib + 1))) := by
  induction ias with
  | nil => exact ⟨false, rfl, by simp⟩
  | cons ia ias ih =>
    obtain ⟨r, hr, hr'⟩ := sidesLoopB_eq a b ia (h ia (by simp)) (List.range b.length) (by simp)
    unfold sidesLoopA
    rw [hr, Res.bind_ok]
    cases r with
    | true =>
      refine ⟨true, by simp, ?_⟩
      simp only [true_iff]
      obtain ⟨ib, hib, hm⟩ := hr'.1 rfl
      exact ⟨ia, by simp, ib, by simpa using hib, hm⟩
    | false =>
      obtain ⟨r, hr2, hr2'⟩ := ih fun j hj => h j (by simp [hj])
      refine ⟨r, by simpa using hr2, ?_⟩
      rw [hr2']
      have hno : ¬ ∃ ib, ib < b.length ∧ SidesMeet (vtx a ia) (vtx a (ia + 1)) (vtx b ib)
          (vtx b (ib + 1)) := by
        rintro ⟨ib, hib, hm⟩
        have := hr'.2 ⟨ib, by simpa using hib, hm⟩
        cases this
      simp [hno]

/-- The call always returns; it answers true exactly if two sides are reported as
intersecting, or the first vertex of one box is strictly on the right of all sides of
the other. -/
theorem collision_eq (a b : List Position2D) :
    ∃ r, areTwoBoxesInCollision a b = .ok r ∧ (r = true ↔
      (∃ a1 a2 b1 b2, IsSide a a1 a2 ∧ IsSide b b1 b2 ∧ SidesMeet a1 a2 b1 b2) ∨
      (∃ a0, a[0]? = some a0 ∧ ∀ u v, IsSide b u v → side u v a0.pt < 0) ∨
      (∃ b0, b[0]? = some b0 ∧ ∀ u v, IsSide a u v → side u v b0.pt < 0)) := by
  obtain ⟨r1, h1, h1'⟩ := sidesLoopA_eq a b (List.range a.length) (by simp)
  have hsides : r1 = true ↔ ∃ a1 a2 b1 b2, IsSide a a1 a2 ∧ IsSide b b1 b2 ∧
      SidesMeet a1 a2 b1 b2 := by
    rw [h1']
    constructor
    · rintro ⟨ia, hia, ib, hib, hm⟩
      exact ⟨_, _, _, _, (isSide_iff _ _).2 ⟨ia, by simpa using hia, rfl, rfl⟩,
        (isSide_iff _ _).2 ⟨ib, hib, rfl, rfl⟩, hm⟩
    · rintro ⟨a1, a2, b1, b2, ha, hb, hm⟩
      obtain ⟨ia, hia, rfl, rfl⟩ := (isSide_iff _ _).1 ha
      obtain ⟨ib, hib, rfl, rfl⟩ := (isSide_iff _ _).1 hb
      exact ⟨ia, by simpa using hia, ib, hib, hm⟩
  have hin : ∀ c d : List Position2D, ∃ r,
      (if c.length > 0 then (Res.read c 0).bind fun c0 => xPointsInsideBox d c0
        else .ok false) = .ok r ∧
      (r = true ↔ ∃ c0, c[0]? = some c0 ∧ ∀ u v, IsSide d u v → side u v c0.pt < 0) := by
    intro c d
    cases c with
    | nil => exact ⟨false, by simp, by simp⟩
    | cons c0 c =>
      obtain ⟨r, hr, hr'⟩ := inside_eq d c0
      refine ⟨r, by simp [hr], ?_⟩
      rw [hr']; simp
  obtain ⟨r2, h2, h2'⟩ := hin a b
  obtain ⟨r3, h3, h3'⟩ := hin b a
  rw [← hsides, ← h2', ← h3']
  unfold areTwoBoxesInCollision
  rw [h1, Res.bind_ok, h2, Res.bind_ok, h3, Res.bind_ok]
  cases r1 <;> cases r2 <;> cases r3 <;> simp

/-! ### Geometry -/

theorem hull_vertex {box : List Position2D} {p : Position2D} (h : p ∈ box) : p.pt ∈ hull box :=
  subset_convexHull ℝ _ ⟨p, h, rfl⟩

theorem isSide_mem {box : List Position2D} {u v : Position2D} (h : IsSide box u v) :
    u ∈ box ∧ v ∈ box := by
  obtain ⟨i, -, h1, h2⟩ := h
  exact ⟨List.mem_of_getElem? h1, List.mem_of_getElem? h2⟩

theorem seg_hull {box : List Position2D} {u v : Position2D} (h : IsSide box u v) :
    seg u v ⊆ hull box :=
  (convex_convexHull ℝ _).segment_subset (hull_vertex (isSide_mem h).1)
    (hull_vertex (isSide_mem h).2)

/-- A point strictly on the right of all sides of a closed polygon, convex or not, is in
the convex hull of the vertices. -/
theorem inside_hull {box : List Position2D} (hne : 0 < box.length) (z : ℝ × ℝ)
    (h : ∀ u v, IsSide box u v → side u v z < 0) : z ∈ hull box := by
  by_contra hz
  have hfin : {z : ℝ × ℝ | ∃ p ∈ box, z = p.pt}.Finite := by
    have : {z : ℝ × ℝ | ∃ p ∈ box, z = p.pt} = ↑((box.map Position2D.pt).toFinset) := by
      ext z; simp [eq_comm]
    rw [this]; exact Finset.finite_toSet _
  obtain ⟨f, c, h1, h2⟩ := geometric_hahn_banach_point_closed (convex_convexHull ℝ _)
    (hfin.isClosed_convexHull ℝ) hz
  have hf : ∀ w : ℝ × ℝ, f w = w.1 * f (1, 0) + w.2 * f (0, 1) := by
    intro w
    have : w = w.1 • ((1 : ℝ), (0 : ℝ)) + w.2 • ((0 : ℝ), (1 : ℝ)) := by ext <;> simp
    conv_lhs => rw [this]
    rw [map_add, map_smul, map_smul]; rfl
  set α := f (1, 0)
  set β := f (0, 1)
  -- coordinates of the vertices in a frame at z aligned with the separating direction
  set g : ℕ → ℝ := fun i => ((vtx box i).x - z.1) * α + ((vtx box i).y - z.2) * β with hg
  set k : ℕ → ℝ := fun i => ((vtx box i).y - z.2) * α - ((vtx box i).x - z.1) * β with hk
  have hgpos : ∀ i, 0 < g i := by
    intro i
    have := h2 _ (hull_vertex (vtx_mem hne i))
    rw [hf] at h1 this
    simp only [hg, Position2D.pt] at this ⊢
    linarith
  have hnz : 0 < α ^ 2 + β ^ 2 := by
    by_contra hn
    have hα : α = 0 := by nlinarith [sq_nonneg α, sq_nonneg β]
    have hβ : β = 0 := by nlinarith [sq_nonneg α, sq_nonneg β]
    have := hgpos 0
    simp only [hg, hα, hβ] at this
    linarith
  have hstep : ∀ i, k (i + 1) / g (i + 1) < k i / g i := by
    intro i
    rw [div_lt_div_iff₀ (hgpos _) (hgpos _)]
    have hs := h _ _ (isSide_vtx hne i)
    have hmul := mul_neg_of_neg_of_pos hs hnz
    have e : side (vtx box i) (vtx box (i + 1)) z * (α ^ 2 + β ^ 2) =
        k (i + 1) * g i - k i * g (i + 1) := by
      simp only [side, hg, hk]; ring
    linarith
  have hlt : ∀ n, 0 < n → k n / g n < k 0 / g 0 := by
    intro n hn
    induction n with
    | zero => omega
    | succ n ih =>
      rcases Nat.eq_zero_or_pos n with rfl | h0
      · exact hstep 0
      · exact (hstep n).trans (ih h0)
  have hper : k box.length / g box.length = k 0 / g 0 := by
    have : vtx box box.length = vtx box 0 := by
      have := vtx_period (box := box) 0
      rwa [Nat.zero_add] at this
    simp only [hg, hk, this]
  exact absurd (hlt _ hne) (by rw [hper]; exact lt_irrefl _)

/-- A reported collision is real: the convex hulls of the vertices of the two boxes have a
common point (provided neither has an empty vertex list). -/
theorem C34_sound_partial (a b : List Position2D) (ha : a ≠ []) (hb : b ≠ [])
    (h : areTwoBoxesInCollision a b = .ok true) : (hull a ∩ hull b).Nonempty := by
  obtain ⟨r, hr, hr'⟩ := collision_eq a b
  rw [h] at hr
  have hr := Res.ok.inj hr
  subst hr
  rcases hr'.1 rfl with ⟨a1, a2, b1, b2, h1, h2, h3⟩ | ⟨a0, h0, h1⟩ | ⟨b0, h0, h1⟩
  · obtain ⟨-, -, z, hz1, hz2⟩ := (C33_exact _ _ _ _ _).1 h3
    exact ⟨z, seg_hull h1 hz1, seg_hull h2 hz2⟩
  · exact ⟨a0.pt, hull_vertex (List.mem_of_getElem? h0),
      inside_hull (List.length_pos_iff.2 hb) _ h1⟩
  · exact ⟨b0.pt, inside_hull (List.length_pos_iff.2 ha) _ h1,
      hull_vertex (List.mem_of_getElem? h0)⟩

/-- The call never throws and never reads out of bounds. -/
theorem C34_total (a b : List Position2D) : ∃ r, areTwoBoxesInCollision a b = .ok r := by
  obtain ⟨r, hr, -⟩ := collision_eq a b
  exact ⟨r, hr⟩

/-- An empty box is reported to collide with every box that has a vertex. -/
theorem C34_empty_collides (b : List Position2D) (hb : b ≠ []) :
    areTwoBoxesInCollision [] b = .ok true ∧ areTwoBoxesInCollision b [] = .ok true := by
  obtain ⟨p, b, rfl⟩ := List.exists_cons_of_ne_nil hb
  constructor
  · obtain ⟨r, hr, hr'⟩ := collision_eq [] (p :: b)
    rw [hr, hr'.2 (Or.inr (Or.inr ⟨p, rfl, ?_⟩))]
    rintro u v ⟨i, hi, -⟩
    simp at hi
  · obtain ⟨r, hr, hr'⟩ := collision_eq (p :: b) []
    rw [hr, hr'.2 (Or.inr (Or.inl ⟨p, rfl, ?_⟩))]
    rintro u v ⟨i, hi, -⟩
    simp at hi

example : ([⟨1, 2⟩] : List Position2D) ≠ [] := by simp

/-- The answer does not depend on the order of the boxes, if no side of either is tiny
(both coordinate differences below 1e-5). -/
theorem C34_symmetric_partial (a b : List Position2D) (ha : ∀ u v, IsSide a u v → NotTiny u v)
    (hb : ∀ u v, IsSide b u v → NotTiny u v) :
    areTwoBoxesInCollision a b = areTwoBoxesInCollision b a := by
  obtain ⟨r, hr, hr'⟩ := collision_eq a b
  obtain ⟨s, hs, hs'⟩ := collision_eq b a
  rw [hr, hs]
  congr 1
  rw [Bool.eq_iff_iff, hr', hs']
  have hmeet : (∃ a1 a2 b1 b2, IsSide a a1 a2 ∧ IsSide b b1 b2 ∧ SidesMeet a1 a2 b1 b2) ↔
      ∃ b1 b2 a1 a2, IsSide b b1 b2 ∧ IsSide a a1 a2 ∧ SidesMeet b1 b2 a1 a2 := by
    constructor
    · rintro ⟨a1, a2, b1, b2, h1, h2, h3⟩
      refine ⟨b1, b2, a1, a2, h2, h1, ?_⟩
      unfold SidesMeet at h3 ⊢
      rw [← (C33_symmetric a1 a2 b1 b2 _ Position2D.zero).1 (ha _ _ h1) (hb _ _ h2), h3]
    · rintro ⟨b1, b2, a1, a2, h1, h2, h3⟩
      refine ⟨a1, a2, b1, b2, h2, h1, ?_⟩
      unfold SidesMeet at h3 ⊢
      rw [(C33_symmetric a1 a2 b1 b2 _ Position2D.zero).1 (ha _ _ h2) (hb _ _ h1), h3]
  rw [hmeet]
  exact or_congr Iff.rfl or_comm

/-- Without that assumption the answer can depend on the order. -/
theorem C34_not_symmetric : ∃ a b : List Position2D,
    areTwoBoxesInCollision a b = .ok false ∧ areTwoBoxesInCollision b a = .ok true := by
  refine ⟨[⟨0, -0.000004⟩, ⟨0, 0.000004⟩], [⟨-1, 0⟩, ⟨1, 0⟩], ?_, ?_⟩
  · obtain ⟨r, hr, hr'⟩ := collision_eq [⟨0, -0.000004⟩, ⟨0, 0.000004⟩] [⟨-1, 0⟩, ⟨1, 0⟩]
    rw [hr]
    congr 1
    rw [← Bool.not_eq_true, hr']
    rintro (⟨a1, a2, b1, b2, h1, h2, h3⟩ | ⟨a0, h0, h1⟩ | ⟨b0, h0, h1⟩)
    · have : ¬ NotTiny a1 a2 := by
        obtain ⟨i, hi, e1, e2⟩ := h1
        simp at hi
        rintro (h | h)
        · interval_cases i <;> simp at e1 e2 <;> subst e1 <;> subst e2 <;> norm_num at h
        · interval_cases i <;> simp at e1 e2 <;> subst e1 <;> subst e2 <;>
            norm_num [abs_of_pos, abs_of_neg] at h
      have h4 := (C33_symmetric a1 a2 b1 b2 Position2D.zero Position2D.zero).2 this
      unfold SidesMeet at h3
      rw [h4] at h3; cases h3
    · simp at h0
      subst h0
      have h2 := h1 ⟨1, 0⟩ ⟨-1, 0⟩ ⟨1, by simp, rfl, rfl⟩
      norm_num [side, Position2D.pt] at h2
    · simp at h0
      subst h0
      have h2 := h1 ⟨0, -0.000004⟩ ⟨0, 0.000004⟩ ⟨0, by simp, rfl, rfl⟩
      norm_num [side, Position2D.pt] at h2
  · obtain ⟨r, hr, hr'⟩ := collision_eq [⟨-1, 0⟩, ⟨1, 0⟩] [⟨0, -0.000004⟩, ⟨0, 0.000004⟩]
    rw [hr, hr'.2 (Or.inl ⟨⟨-1, 0⟩, ⟨1, 0⟩, ⟨0, -0.000004⟩, ⟨0, 0.000004⟩,
      ⟨0, by simp, rfl, rfl⟩, ⟨0, by simp, rfl, rfl⟩, ?_⟩)]
    unfold SidesMeet
    rw [C33_exact]
    refine ⟨by norm_num [crossDir, abs_of_pos], Or.inl (by norm_num), (0, 0), ?_, ?_⟩
    · exact (mem_seg _ _ _).2 ⟨1 / 2, by norm_num, by norm_num, by norm_num, by norm_num⟩
    · exact (mem_seg _ _ _).2 ⟨1 / 2, by norm_num, by norm_num, by norm_num, by norm_num⟩

/-! ### Completeness for convex boxes -/

theorem side_affine (u v : Position2D) (x y : ℝ × ℝ) (t : ℝ) :
    side u v (x.1 + t * (y.1 - x.1), x.2 + t * (y.2 - x.2)) =
      (1 - t) * side u v x + t * side u v y := by
  simp only [side]; ring

/-- On the way from a point on the right of all sides to a point that is not strictly so,
some side's line is met while still on the right of all. -/
theorem leave_point {box : List Position2D} (hne : 0 < box.length) (x y : ℝ × ℝ)
    (hx : ∀ i, side (vtx box i) (vtx box (i + 1)) x ≤ 0)
    (hy : ∃ i, i < box.length ∧ 0 ≤ side (vtx box i) (vtx box (i + 1)) y) :
    ∃ t : ℝ, 0 ≤ t ∧ t ≤ 1 ∧ ∃ i, i < box.length ∧
      side (vtx box i) (vtx box (i + 1)) (x.1 + t * (y.1 - x.1), x.2 + t * (y.2 - x.2)) = 0 ∧
      ∀ j, j < box.length → side (vtx box j) (vtx box (j + 1))
        (x.1 + t * (y.1 - x.1), x.2 + t * (y.2 - x.2)) ≤ 0 := by
  have hr : (Finset.range box.length).Nonempty := ⟨0, by simpa using hne⟩
  set F : ℝ → ℝ := fun t => (Finset.range box.length).sup' hr fun i =>
    side (vtx box i) (vtx box (i + 1)) (x.1 + t * (y.1 - x.1), x.2 + t * (y.2 - x.2)) with hF
  have hcont : Continuous F := by
    apply Continuous.finset_sup'_apply
    intro i _
    unfold side
    fun_prop
  have h0 : F 0 ≤ 0 := by
    simp only [hF]
    apply Finset.sup'_le
    intro i _
    rw [side_affine]; linarith [hx i]
  have h1 : 0 ≤ F 1 := by
    obtain ⟨i, hi, hs⟩ := hy
    refine le_trans ?_ (Finset.le_sup' _ (Finset.mem_range.2 hi))
    rw [side_affine]; linarith
  obtain ⟨t, ⟨t0, t1⟩, ht⟩ := intermediate_value_Icc (zero_le_one' ℝ) hcont.continuousOn ⟨h0, h1⟩
  obtain ⟨i, hi, he⟩ := Finset.exists_mem_eq_sup' hr fun i =>
    side (vtx box i) (vtx box (i + 1)) (x.1 + t * (y.1 - x.1), x.2 + t * (y.2 - x.2))
  refine ⟨t, t0, t1, i, Finset.mem_range.1 hi, ?_, ?_⟩
  · rw [← he]; exact ht
  · intro j hj
    have := Finset.le_sup' (fun i => side (vtx box i) (vtx box (i + 1))
      (x.1 + t * (y.1 - x.1), x.2 + t * (y.2 - x.2))) (Finset.mem_range.2 hj)
    have ht' : F t = 0 := ht
    simp only [hF] at ht'
    rw [ht'] at this
    exact this

theorem side_mod {box : List Position2D} {i : ℕ} {z : ℝ × ℝ} (hne : 0 < box.length)
    (h : ∀ j, j < box.length → side (vtx box j) (vtx box (j + 1)) z ≤ 0) :
    side (vtx box i) (vtx box (i + 1)) z ≤ 0 := by
  have e1 : vtx box i = vtx box (i % box.length) := by unfold vtx; rw [Nat.mod_mod]
  have e2 : vtx box (i + 1) = vtx box (i % box.length + 1) := by unfold vtx; rw [Nat.mod_add_mod]
  rw [e1, e2]
  exact h _ (Nat.mod_lt _ hne)

/-- A point of a convex box that is on the line of a side is on the side. -/
theorem face {box : List Position2D} (hne : 0 < box.length) (hc : IsConvexCW box) (i : ℕ)
    (z : ℝ × ℝ) (hz : ∀ j, side (vtx box j) (vtx box (j + 1)) z ≤ 0)
    (h0 : side (vtx box i) (vtx box (i + 1)) z = 0) :
    z ∈ seg (vtx box i) (vtx box (i + 1)) := by
  -- shift the index so that there is a previous vertex
  obtain ⟨k, hk⟩ : ∃ k, k + 1 = i + box.length := ⟨i + box.length - 1, by omega⟩
  have e1 : vtx box (k + 1) = vtx box i := by rw [hk, vtx_period]
  have e2 : vtx box (k + 1 + 1) = vtx box (i + 1) := by
    rw [hk, show i + box.length + 1 = i + 1 + box.length by omega, vtx_period]
  obtain ⟨hc1, hc2, hc3⟩ := hc
  have hp := hz k
  have hn := hz (k + 1 + 1)
  have t1 := hc2 _ _ _ (isSide_vtx hne k) (isSide_vtx hne (k + 1))
    (hc3 _ _ (isSide_vtx hne k)) (hc3 _ _ (isSide_vtx hne (k + 1)))
  have t2 := hc2 _ _ _ (isSide_vtx hne (k + 1)) (isSide_vtx hne (k + 1 + 1))
    (hc3 _ _ (isSide_vtx hne (k + 1))) (hc3 _ _ (isSide_vtx hne (k + 1 + 1)))
  have hne' := hc3 _ _ (isSide_vtx hne (k + 1))
  rw [← e1, ← e2] at h0 ⊢
  generalize vtx box k = p at hp t1
  generalize vtx box (k + 1 + 1 + 1) = w at hn t2
  generalize vtx box (k + 1) = u at *
  generalize vtx box (k + 1 + 1) = v at *
  have hd : 0 < (v.x - u.x) ^ 2 + (v.y - u.y) ^ 2 := by
    by_contra hd
    apply hne'
    ext
    · nlinarith [sq_nonneg (v.x - u.x), sq_nonneg (v.y - u.y)]
    · nlinarith [sq_nonneg (v.x - u.x), sq_nonneg (v.y - u.y)]
  set s := ((z.1 - u.x) * (v.x - u.x) + (z.2 - u.y) * (v.y - u.y)) /
    ((v.x - u.x) ^ 2 + (v.y - u.y) ^ 2) with hs
  have hs' : s * ((v.x - u.x) ^ 2 + (v.y - u.y) ^ 2) =
      (z.1 - u.x) * (v.x - u.x) + (z.2 - u.y) * (v.y - u.y) := by
    rw [hs, div_mul_cancel₀ _ hd.ne']
  clear_value s
  have hz1 : z.1 = u.x + s * (v.x - u.x) := by
    have : (z.1 - u.x - s * (v.x - u.x)) * ((v.x - u.x) ^ 2 + (v.y - u.y) ^ 2) = 0 := by
      unfold side at h0
      linear_combination -(v.x - u.x) * hs' - (v.y - u.y) * h0
    have := (mul_eq_zero.1 this).resolve_right hd.ne'
    linarith
  have hz2 : z.2 = u.y + s * (v.y - u.y) := by
    have : (z.2 - u.y - s * (v.y - u.y)) * ((v.x - u.x) ^ 2 + (v.y - u.y) ^ 2) = 0 := by
      unfold side at h0
      linear_combination -(v.y - u.y) * hs' + (v.x - u.x) * h0
    have := (mul_eq_zero.1 this).resolve_right hd.ne'
    linarith
  refine (mem_seg _ _ _).2 ⟨s, ?_, ?_, hz1, hz2⟩
  · by_contra hn'
    have e : side p u z = s * side p u v.pt := by
      simp only [side, hz1, hz2, Position2D.pt]; ring
    rw [e] at hp
    have := mul_pos_of_neg_of_neg (not_le.1 hn') t1
    linarith
  · by_contra hn'
    have e : side v w z = (1 - s) * side u v w.pt := by
      simp only [side, hz1, hz2, Position2D.pt]; ring
    rw [e] at hn
    have := mul_pos_of_neg_of_neg (sub_neg.2 (not_le.1 hn')) t2
    linarith

theorem hull_side {box : List Position2D} (hc : IsConvexCW box) {z : ℝ × ℝ} (hz : z ∈ hull box)
    {u v : Position2D} (h : IsSide box u v) : side u v z ≤ 0 := by
  have hconv : Convex ℝ {z : ℝ × ℝ | side u v z ≤ 0} := by
    intro x hx y hy s t hs ht hst
    simp only [Set.mem_setOf_eq] at hx hy ⊢
    have : side u v (s • x + t • y) = s * side u v x + t * side u v y := by
      have hs : s = 1 - t := by linarith
      subst hs
      simp only [side, Prod.fst_add, Prod.snd_add, Prod.smul_fst, Prod.smul_snd, smul_eq_mul]
      ring
    rw [this]
    nlinarith
  refine convexHull_min ?_ hconv hz
  rintro _ ⟨p, hp, rfl⟩
  exact hc.1 u v h p hp

/-- For convex boxes with vertices listed clockwise, no tiny sides, and where any two
sides that touch make a cross product of at least 1e-5 (not nearly parallel, not both
very short), the test is exact: it answers true if and only if the boxes have a common
point. -/
theorem C34_exact_partial (a b : List Position2D) (ha : a ≠ []) (hb : b ≠ [])
    (hca : IsConvexCW a) (hcb : IsConvexCW b) (hta : ∀ u v, IsSide a u v → NotTiny u v)
    (hx : ∀ a1 a2 b1 b2, IsSide a a1 a2 → IsSide b b1 b2 → (seg a1 a2 ∩ seg b1 b2).Nonempty →
      0.00001 ≤ |crossDir a1 a2 b1 b2|) :
    areTwoBoxesInCollision a b = .ok true ↔ (hull a ∩ hull b).Nonempty := by
  refine ⟨C34_sound_partial a b ha hb, ?_⟩
  rintro ⟨p, hpa, hpb⟩
  have hla : 0 < a.length := List.length_pos_iff.2 ha
  have hlb : 0 < b.length := List.length_pos_iff.2 hb
  obtain ⟨r, hr, hr'⟩ := collision_eq a b
  rw [hr]
  congr 1
  rw [hr']
  by_contra hn
  push Not at hn
  obtain ⟨hn1, hn2, hn3⟩ := hn
  have hnm : ∀ i j z, z ∈ seg (vtx a i) (vtx a (i + 1)) → z ∉ seg (vtx b j) (vtx b (j + 1)) := by
    intro i j z hz1 hz2
    apply hn1 _ _ _ _ (isSide_vtx hla i) (isSide_vtx hlb j)
    unfold SidesMeet
    rw [C33_exact]
    exact ⟨hx _ _ _ _ (isSide_vtx hla i) (isSide_vtx hlb j) ⟨z, hz1, hz2⟩,
      hta _ _ (isSide_vtx hla i), z, hz1, hz2⟩
  have ga0 : a[0]? = some (vtx a 0) := by
    have := vtx_get hla 0; rwa [Nat.zero_mod] at this
  have gb0 : b[0]? = some (vtx b 0) := by
    have := vtx_get hlb 0; rwa [Nat.zero_mod] at this
  -- from the common point to the first vertex of a: a point of a on a side of b
  obtain ⟨u, v, hside, hs⟩ := hn2 _ ga0
  obtain ⟨j, hj, rfl, rfl⟩ := (isSide_iff _ _).1 hside
  obtain ⟨t, t0, t1, j, hj, hj0, hjall⟩ := leave_point hlb p (vtx a 0).pt
    (fun i => hull_side hcb hpb (isSide_vtx hlb i)) ⟨j, hj, hs⟩
  set z : ℝ × ℝ := (p.1 + t * ((vtx a 0).pt.1 - p.1), p.2 + t * ((vtx a 0).pt.2 - p.2)) with hz
  have hza : ∀ i, side (vtx a i) (vtx a (i + 1)) z ≤ 0 := by
    intro i
    rw [hz, side_affine]
    have h1 := hull_side hca hpa (isSide_vtx hla i)
    have h2 := hca.1 _ _ (isSide_vtx hla i) _ (vtx_mem hla 0)
    nlinarith
  have hzb : z ∈ seg (vtx b j) (vtx b (j + 1)) :=
    face hlb hcb j z (fun i => side_mod hlb hjall) hj0
  clear_value z
  -- along the sides of b to its first vertex: a side of b that leaves a
  have hlast : ∃ m, ∃ i, i < a.length ∧
      0 ≤ side (vtx a i) (vtx a (i + 1)) (vtx b (j + (m + 1))).pt := by
    obtain ⟨u, v, hside, hs⟩ := hn3 _ gb0
    obtain ⟨i, hi, rfl, rfl⟩ := (isSide_iff _ _).1 hside
    refine ⟨b.length - j - 1, i, hi, ?_⟩
    have : vtx b (j + (b.length - j - 1 + 1)) = vtx b 0 := by
      rw [show j + (b.length - j - 1 + 1) = 0 + b.length by omega, vtx_period]
    rw [this]; exact hs
  classical
  have hm := Nat.find_spec hlast
  set m := Nat.find hlast with hmdef
  obtain ⟨q, hq1, hq2, hq3⟩ : ∃ q : ℝ × ℝ, (∀ i, side (vtx a i) (vtx a (i + 1)) q ≤ 0) ∧
      q ∈ seg (vtx b (j + m)) (vtx b (j + m + 1)) ∧ True := by
    rcases Nat.eq_zero_or_pos m with h0 | h0
    · rw [h0]; exact ⟨z, hza, hzb, trivial⟩
    · have hmin := Nat.find_min hlast (m := m - 1) (by omega)
      push Not at hmin
      rw [show m - 1 + 1 = m by omega] at hmin
      refine ⟨(vtx b (j + m)).pt, fun i => side_mod hla fun k hk => (hmin k hk).le, ?_, trivial⟩
      exact left_mem_segment ℝ _ _
  obtain ⟨s, s0, s1, i, hi, hi0, hiall⟩ := leave_point hla q _ hq1 hm
  have hw1 := face hla hca i _ (fun i => side_mod hla hiall) hi0
  refine hnm i (j + m) _ hw1 ?_
  obtain ⟨c, c0, c1, e1, e2⟩ := (mem_seg _ _ _).1 hq2
  refine (mem_seg _ _ _).2 ⟨c + s * (1 - c), ?_, ?_, ?_, ?_⟩
  · nlinarith
  · nlinarith
  · simp only [Position2D.pt, e1]
    rw [show j + (m + 1) = j + m + 1 by omega]; ring
  · simp only [Position2D.pt, e2]
    rw [show j + (m + 1) = j + m + 1 by omega]; ring

/-- The sides of a triangle. -/
theorem isSide_triangle (p q r u v : Position2D) :
    IsSide [p, q, r] u v ↔ (u = p ∧ v = q) ∨ (u = q ∧ v = r) ∨ (u = r ∧ v = p) := by
  constructor
  · rintro ⟨i, hi, h1, h2⟩
    simp at hi
    interval_cases i <;> simp at h1 h2 <;> simp [h1, h2]
  · rintro (⟨rfl, rfl⟩ | ⟨rfl, rfl⟩ | ⟨rfl, rfl⟩)
    · exact ⟨0, by simp, rfl, rfl⟩
    · exact ⟨1, by simp, rfl, rfl⟩
    · exact ⟨2, by simp, by simp, by simp⟩

/-- Two overlapping clockwise triangles meet all hypotheses of the exactness theorem. -/
example : areTwoBoxesInCollision [⟨0, 0⟩, ⟨0, 2⟩, ⟨2, 0⟩] [⟨1, -1⟩, ⟨1, 3⟩, ⟨4, 1⟩] = .ok true := by
  have hcw : ∀ p q r : Position2D, side p q r.pt < 0 → IsConvexCW [p, q, r] := by
    intro p q r h
    have e1 : side q r p.pt = side p q r.pt := by simp only [side, Position2D.pt]; ring
    have e2 : side r p q.pt = side p q r.pt := by simp only [side, Position2D.pt]; ring
    have d1 : p ≠ q := by rintro rfl; simp [side] at h
    have d2 : q ≠ r := by rintro rfl; simp [side, Position2D.pt, mul_comm] at h
    have d3 : r ≠ p := by rintro rfl; simp [side, Position2D.pt] at h
    have z : ∀ u v : Position2D, side u v u.pt = 0 ∧ side u v v.pt = 0 := by
      intro u v; constructor <;> simp only [side, Position2D.pt] <;> ring
    refine ⟨?_, ?_, ?_⟩
    · intro u v huv w hw
      rw [isSide_triangle] at huv
      simp only [List.mem_cons, List.not_mem_nil, or_false] at hw
      rcases huv with ⟨rfl, rfl⟩ | ⟨rfl, rfl⟩ | ⟨rfl, rfl⟩ <;> rcases hw with rfl | rfl | rfl <;>
        first | exact (z _ _).1.le | exact (z _ _).2.le | linarith
    · intro u v w huv hvw _ _
      rw [isSide_triangle] at huv hvw
      rcases huv with ⟨rfl, rfl⟩ | ⟨rfl, rfl⟩ | ⟨rfl, rfl⟩ <;>
        rcases hvw with ⟨e, rfl⟩ | ⟨e, rfl⟩ | ⟨e, rfl⟩ <;>
        first | linarith | exact absurd e (by tauto) | exact absurd e.symm (by tauto)
    · intro u v huv
      rw [isSide_triangle] at huv
      rcases huv with ⟨rfl, rfl⟩ | ⟨rfl, rfl⟩ | ⟨rfl, rfl⟩ <;> assumption
  rw [C34_exact_partial _ _ (by simp) (by simp) (hcw _ _ _ (by norm_num [side, Position2D.pt]))
    (hcw _ _ _ (by norm_num [side, Position2D.pt]))]
  · refine ⟨(1, 1 / 2), ?_, ?_⟩
    · refine inside_hull (by simp) _ fun u v h => ?_
      rw [isSide_triangle] at h
      rcases h with ⟨rfl, rfl⟩ | ⟨rfl, rfl⟩ | ⟨rfl, rfl⟩ <;> norm_num [side]
    · refine seg_hull (u := ⟨1, -1⟩) (v := ⟨1, 3⟩) ⟨0, by simp, rfl, rfl⟩ ?_
      exact (mem_seg _ _ _).2 ⟨3 / 8, by norm_num, by norm_num, by norm_num, by norm_num⟩
  · intro u v h
    rw [isSide_triangle] at h
    rcases h with ⟨rfl, rfl⟩ | ⟨rfl, rfl⟩ | ⟨rfl, rfl⟩
    · exact Or.inr (by norm_num)
    · exact Or.inl (by norm_num)
    · exact Or.inl (by norm_num)
  · intro a1 a2 b1 b2 h1 h2 h3
    rw [isSide_triangle] at h1 h2
    obtain ⟨z, hz1, hz2⟩ := h3
    obtain ⟨s, s0, s1, e1, e2⟩ := (mem_seg _ _ _).1 hz1
    obtain ⟨t, t0, t1, f1, f2⟩ := (mem_seg _ _ _).1 hz2
    rcases h1 with ⟨rfl, rfl⟩ | ⟨rfl, rfl⟩ | ⟨rfl, rfl⟩ <;>
      rcases h2 with ⟨rfl, rfl⟩ | ⟨rfl, rfl⟩ | ⟨rfl, rfl⟩ <;>
      first
      | (norm_num [crossDir]; done)
      | (norm_num at e1 e2 f1 f2; exfalso; linarith)

/-- With the vertices in counter-clockwise order a box nested in another is missed. -/
theorem C34_counterclockwise_missed : ∃ a b : List Position2D,
    areTwoBoxesInCollision a b = .ok false ∧ hull b ⊆ hull a ∧ b ≠ [] := by
  refine ⟨[⟨-9, -9⟩, ⟨9, -9⟩, ⟨0, 9⟩], [⟨-1, -1⟩, ⟨1, -1⟩, ⟨0, 1⟩], ?_, ?_, by simp⟩
  · obtain ⟨r, hr, hr'⟩ := collision_eq [⟨-9, -9⟩, ⟨9, -9⟩, ⟨0, 9⟩] [⟨-1, -1⟩, ⟨1, -1⟩, ⟨0, 1⟩]
    rw [hr]
    congr 1
    rw [← Bool.not_eq_true, hr']
    rintro (⟨a1, a2, b1, b2, h1, h2, h3⟩ | ⟨a0, h0, h1⟩ | ⟨b0, h0, h1⟩)
    · obtain ⟨-, -, z, hz1, hz2⟩ := (C33_exact _ _ _ _ _).1 h3
      rw [isSide_triangle] at h1 h2
      obtain ⟨s, s0, s1, e1, e2⟩ := (mem_seg _ _ _).1 hz1
      obtain ⟨t, t0, t1, f1, f2⟩ := (mem_seg _ _ _).1 hz2
      rcases h1 with ⟨rfl, rfl⟩ | ⟨rfl, rfl⟩ | ⟨rfl, rfl⟩ <;>
        rcases h2 with ⟨rfl, rfl⟩ | ⟨rfl, rfl⟩ | ⟨rfl, rfl⟩ <;>
        (norm_num at e1 e2 f1 f2; linarith)
    · simp at h0
      subst h0
      have h2 := h1 ⟨1, -1⟩ ⟨0, 1⟩ ⟨1, by simp, rfl, rfl⟩
      norm_num [side, Position2D.pt] at h2
    · simp at h0
      subst h0
      have h2 := h1 ⟨-9, -9⟩ ⟨9, -9⟩ ⟨0, by simp, rfl, rfl⟩
      norm_num [side, Position2D.pt] at h2
  · have hsub : ∀ p ∈ ([⟨-1, -1⟩, ⟨1, -1⟩, ⟨0, 1⟩] : List Position2D),
        p.pt ∈ hull [⟨-9, -9⟩, ⟨9, -9⟩, ⟨0, 9⟩] := by
      intro p hp
      -- the same box listed clockwise has the same hull
      have he : hull [⟨-9, -9⟩, ⟨9, -9⟩, ⟨0, 9⟩] = hull [⟨0, 9⟩, ⟨9, -9⟩, ⟨-9, -9⟩] := by
        unfold hull; congr 1; ext z; simp; tauto
      rw [he]
      refine inside_hull (by simp) _ fun u v h => ?_
      rw [isSide_triangle] at h
      simp only [List.mem_cons, List.not_mem_nil, or_false] at hp
      rcases h with ⟨rfl, rfl⟩ | ⟨rfl, rfl⟩ | ⟨rfl, rfl⟩ <;> rcases hp with rfl | rfl | rfl <;>
        norm_num [side, Position2D.pt]
    refine convexHull_min ?_ (convex_convexHull ℝ _)
    rintro _ ⟨p, hp, rfl⟩
    exact hsub p hp

end AlMath
