import Verif.Model.FloatFoot
import Verif.Props.C34
import Verif.Props.C84
import Verif.Props.C97

/-!
C98: the collision test of feet in single precision.
-/

namespace AlMath.F32

namespace Spec

/-- `u v` is a side of the closed polygon with the given vertices: consecutive vertices, or the last and the first. Not in
/repo: specification. -/
def IsSide (box : List Position2D) (u v : Position2D) : Prop :=
  ∃ i, i < box.length ∧ box[i]? = some u ∧ box[(i + 1) % box.length]? = some v

/-- The rounded cross product says that `p` is not on the left of the line from `u` to `v`, nor on it; NaN says so too. Not in
/repo: specification. -/
def Right (u v p : Position2D) : Prop :=
  ¬ le (fin 0) (sub (mul (sub v.x u.x) (sub p.y u.y)) (mul (sub v.y u.y) (sub p.x u.x)))

/-- The point of floats that holds the numbers of an exact point. Not in /repo: specification. -/
def point (P : AlMath.Position2D) : Position2D := ⟨fin P.x, fin P.y⟩

/-- The coordinates are floats and within `L`. Not in /repo: specification. -/
def Fits (P : AlMath.Position2D) (L : ℝ) : Prop := Rep P.x ∧ Rep P.y ∧ |P.x| ≤ L ∧ |P.y| ≤ L

/-- Both coordinates of `P` are within `e` of those of a point of the segment. Not in /repo: specification. -/
def NearSeg (a b P : AlMath.Position2D) (e : ℝ) : Prop := ∃ z ∈ AlMath.Spec.seg a b, |P.x - z.1| ≤ e ∧ |P.y - z.2| ≤ e

/-- The length from which the code computes the parameter on the segment: the extent along x, unless this one is tiny. Not in
/repo: specification. -/
def Lead (a b : AlMath.Position2D) (g : ℝ) : Prop :=
  2 ^ (-17 : ℤ) ≤ g ∧ (g = |b.x - a.x| ∨ g = |b.y - a.y| ∧ |b.x - a.x| ≤ 2 ^ (-16 : ℤ))

/-- A length from which the code certainly computes the parameter on the segment, or less. Not in /repo: specification. -/
def ClearLead (a b : AlMath.Position2D) (g : ℝ) : Prop :=
  2 ^ (-16 : ℤ) ≤ g ∧ (g ≤ |b.x - a.x| ∨ |b.x - a.x| ≤ 2 ^ (-17 : ℤ) ∧ g ≤ |b.y - a.y|)

/-- The segments cross at an angle, not close to their ends: at the parameters `t` and `s`, which are at least `δ` away from 0 and
1. Not in /repo: specification. -/
structure ClearCrossing (a1 a2 b1 b2 : AlMath.Position2D) (L : ℝ) : Prop where
  angle : 2 ^ (-16 : ℤ) + 2 ^ (-18 : ℤ) * L ^ 2 ≤ |AlMath.Spec.crossDir a1 a2 b1 b2|
  cross : ∃ s t δ g, a1.x + t * (a2.x - a1.x) = b1.x + s * (b2.x - b1.x) ∧ a1.y + t * (a2.y - a1.y) = b1.y + s * (b2.y - b1.y) ∧
    δ ≤ s ∧ s ≤ 1 - δ ∧ δ ≤ t ∧ t ≤ 1 - δ ∧ ClearLead a1 a2 g ∧
    2 ^ (-16 : ℤ) * L ^ 2 ≤ δ * |AlMath.Spec.crossDir a1 a2 b1 b2| ∧
    2 ^ (-14 : ℤ) * L ^ 3 ≤ δ * |AlMath.Spec.crossDir a1 a2 b1 b2| * g

end Spec

open Spec

/-- Vertices with cyclic numbering. -/
noncomputable def vtx (box : List Position2D) (i : ℕ) : Position2D :=
  box.getD (i % box.length) ⟨fin 0, fin 0⟩

theorem vtx_get {box : List Position2D} (h : 0 < box.length) (i : ℕ) :
    box[i % box.length]? = some (vtx box i) := by
  unfold vtx
  rw [List.getD, List.getElem?_eq_getElem (Nat.mod_lt _ h), Option.getD_some]

theorem vtx_mem {box : List Position2D} (h : 0 < box.length) (i : ℕ) : vtx box i ∈ box :=
  List.mem_of_getElem? (vtx_get h i)

theorem isSide_vtx {box : List Position2D} (h : 0 < box.length) (i : ℕ) :
    IsSide box (vtx box i) (vtx box (i + 1)) := by
  refine ⟨i % box.length, Nat.mod_lt _ h, vtx_get h i, ?_⟩
  rw [Nat.mod_add_mod]; exact vtx_get h (i + 1)

theorem isSide_iff {box : List Position2D} (u v : Position2D) :
    IsSide box u v ↔ ∃ i, i < box.length ∧ u = vtx box i ∧ v = vtx box (i + 1) := by
  constructor
  · rintro ⟨i, hi, h1, h2⟩
    have h0 : 0 < box.length := by omega
    refine ⟨i, hi, ?_, ?_⟩
    · have := vtx_get h0 i
      rw [Nat.mod_eq_of_lt hi, h1] at this
      exact Option.some.inj this
    · have := vtx_get h0 (i + 1)
      rw [h2] at this
      exact Option.some.inj this
  · rintro ⟨i, hi, rfl, rfl⟩
    exact isSide_vtx (by omega) i

/-! ### What the loops compute -/

theorem insideLoop_eq (box : List Position2D) (p : Position2D) (is : List ℕ)
    (h : ∀ i ∈ is, i < box.length) :
    ∃ r, insideLoop box p is = .ok r ∧
      (r = true ↔ ∀ i ∈ is, Right (vtx box i) (vtx box (i + 1)) p) := by
  induction is with
  | nil => exact ⟨true, rfl, by simp⟩
  | cons i is ih =>
    have hi := h i (by simp)
    have h0 : 0 < box.length := by omega
    have e1 : Res.read box i = .ok (vtx box i) := by
      apply read_some
      have := vtx_get h0 i
      rwa [Nat.mod_eq_of_lt hi] at this
    have e2 : Res.read box (if i + 1 = box.length then 0 else i + 1) = .ok (vtx box (i + 1)) := by
      apply read_some
      rw [← vtx_get h0 (i + 1)]
      split_ifs with hc
      · rw [hc, Nat.mod_self]
      · rw [Nat.mod_eq_of_lt (by omega)]
    unfold insideLoop
    dsimp only
    rw [e2, e1]
    simp only [Res.bind_ok]
    split_ifs with hc
    · refine ⟨false, rfl, ?_⟩
      simp only [Bool.false_eq_true, false_iff, not_forall]
      exact ⟨i, by simp, not_not.2 hc⟩
    · obtain ⟨r, hr, hr'⟩ := ih fun j hj => h j (by simp [hj])
      refine ⟨r, hr, ?_⟩
      rw [hr']
      have hc' : Right (vtx box i) (vtx box (i + 1)) p := hc
      simp [hc']

theorem inside_eq (box : List Position2D) (p : Position2D) :
    ∃ r, xPointsInsideBox box p = .ok r ∧
      (r = true ↔ ∀ u v, IsSide box u v → Right u v p) := by
  obtain ⟨r, hr, hr'⟩ := insideLoop_eq box p (List.range box.length) (by simp)
  refine ⟨r, hr, ?_⟩
  rw [hr']
  constructor
  · intro h u v huv
    obtain ⟨i, hi, rfl, rfl⟩ := (isSide_iff u v).1 huv
    exact h i (by simpa using hi)
  · intro h i hi
    exact h _ _ ((isSide_iff _ _).2 ⟨i, by simpa using hi, rfl, rfl⟩)

/-- Two sides are reported as intersecting. -/
def SidesMeet (a1 a2 b1 b2 : Position2D) : Prop :=
  (intersectionSegment2D a1 a2 b1 b2 ⟨fin 0, fin 0⟩).1 = true

theorem sidesLoopB_eq (a b : List Position2D) (ia : ℕ) (ha : ia < a.length) (ibs : List ℕ)
    (h : ∀ i ∈ ibs, i < b.length) :
    ∃ r, sidesLoopB a b ia ibs = .ok r ∧
      (r = true ↔ ∃ ib ∈ ibs, SidesMeet (vtx a ia) (vtx a (ia + 1)) (vtx b ib)
        (vtx b (ib + 1))) := by
  induction ibs with
  | nil => exact ⟨false, rfl, by simp⟩
  | cons ib ibs ih =>
    have hb := h ib (by simp)
    have ha0 : 0 < a.length := by omega
    have hb0 : 0 < b.length := by omega
    have e1 : Res.read a ia = .ok (vtx a ia) := by
      apply read_some
      have := vtx_get ha0 ia
      rwa [Nat.mod_eq_of_lt ha] at this
    have e2 : Res.read b ib = .ok (vtx b ib) := by
      apply read_some
      have := vtx_get hb0 ib
      rwa [Nat.mod_eq_of_lt hb] at this
    unfold sidesLoopB
    rw [e1, e2, read_some (vtx_get ha0 (ia + 1)), read_some (vtx_get hb0 (ib + 1))]
    simp only [Res.bind_ok]
    split_ifs with hc
    · refine ⟨true, rfl, ?_⟩
      simp only [true_iff]
      exact ⟨ib, by simp, hc⟩
    · obtain ⟨r, hr, hr'⟩ := ih fun j hj => h j (by simp [hj])
      refine ⟨r, hr, ?_⟩
      rw [hr']
      have hc' : ¬ SidesMeet (vtx a ia) (vtx a (ia + 1)) (vtx b ib) (vtx b (ib + 1)) := hc
      simp [hc']

theorem sidesLoopA_eq (a b : List Position2D) (ias : List ℕ) (h : ∀ i ∈ ias, i < a.length) :
    ∃ r, sidesLoopA a b ias = .ok r ∧
      (r = true ↔ ∃ ia ∈ ias, ∃ ib, ib < b.length ∧ SidesMeet (vtx a ia) (vtx a (ia + 1)) (vtx b ib)
        (vtx b (ib + 1))) := by
  induction ias with
  | nil => exact ⟨false, rfl, by simp⟩
  | cons ia ias ih =>
    obtain ⟨r, hr, hr'⟩ := sidesLoopB_eq a b ia (h ia (by simp)) (List.range b.length) (by simp)
    unfold sidesLoopA
    rw [hr, Res.bind_ok]
    cases r with
    | true =>
      refine ⟨true, by simp, ?_⟩
      simp only [true_iff]
      obtain ⟨ib, hib, hm⟩ := hr'.1 rfl
      exact ⟨ia, by simp, ib, by simpa using hib, hm⟩
    | false =>
      obtain ⟨r, hr2, hr2'⟩ := ih fun j hj => h j (by simp [hj])
      refine ⟨r, by simpa using hr2, ?_⟩
      rw [hr2']
      have hno : ¬ ∃ ib, ib < b.length ∧ SidesMeet (vtx a ia) (vtx a (ia + 1)) (vtx b ib)
          (vtx b (ib + 1)) := by
        rintro ⟨ib, hib, hm⟩
        have := hr'.2 ⟨ib, by simpa using hib, hm⟩
        cases this
      simp [hno]

/-- The call always returns; it answers true exactly if two sides are reported as
intersecting, or the first vertex of one box is strictly on the right of all sides of
the other. -/
theorem collision_eq (a b : List Position2D) :
    ∃ r, areTwoBoxesInCollision a b = .ok r ∧ (r = true ↔
      (∃ a1 a2 b1 b2, IsSide a a1 a2 ∧ IsSide b b1 b2 ∧ SidesMeet a1 a2 b1 b2) ∨
      (∃ a0, a[0]? = some a0 ∧ ∀ u v, IsSide b u v → Right u v a0) ∨
      (∃ b0, b[0]? = some b0 ∧ ∀ u v, IsSide a u v → Right u v b0)) := by
  obtain ⟨r1, h1, h1'⟩ := sidesLoopA_eq a b (List.range a.length) (by simp)
  have hsides : r1 = true ↔ ∃ a1 a2 b1 b2, IsSide a a1 a2 ∧ IsSide b b1 b2 ∧
      SidesMeet a1 a2 b1 b2 := by
    rw [h1']
    constructor
    · rintro ⟨ia, hia, ib, hib, hm⟩
      exact ⟨_, _, _, _, (isSide_iff _ _).2 ⟨ia, by simpa using hia, rfl, rfl⟩,
        (isSide_iff _ _).2 ⟨ib, hib, rfl, rfl⟩, hm⟩
    · rintro ⟨a1, a2, b1, b2, ha, hb, hm⟩
      obtain ⟨ia, hia, rfl, rfl⟩ := (isSide_iff _ _).1 ha
      obtain ⟨ib, hib, rfl, rfl⟩ := (isSide_iff _ _).1 hb
      exact ⟨ia, by simpa using hia, ib, hib, hm⟩
  have hin : ∀ c d : List Position2D, ∃ r,
      (if c.length > 0 then (Res.read c 0).bind fun c0 => xPointsInsideBox d c0
        else .ok false) = .ok r ∧
      (r = true ↔ ∃ c0, c[0]? = some c0 ∧ ∀ u v, IsSide d u v → Right u v c0) := by
    intro c d
    cases c with
    | nil => exact ⟨false, by simp, by simp⟩
    | cons c0 c =>
      obtain ⟨r, hr, hr'⟩ := inside_eq d c0
      refine ⟨r, by simp [hr], ?_⟩
      rw [hr']; simp
  obtain ⟨r2, h2, h2'⟩ := hin a b
  obtain ⟨r3, h3, h3'⟩ := hin b a
  rw [← hsides, ← h2', ← h3']
  unfold areTwoBoxesInCollision
  rw [h1, Res.bind_ok, h2, Res.bind_ok, h3, Res.bind_ok]
  cases r1 <;> cases r2 <;> cases r3 <;> simp

/-! ### Rounding errors -/

theorem eta_scale {L : ℝ} (h : 1 / 1024 ≤ L) : 2 ^ (-150 : ℤ) * 10 ^ 20 ≤ L ∧ 2 ^ (-150 : ℤ) * 10 ^ 20 ≤ L * L := by
  have h2 : 1 / 1024 * (1 / 1024) ≤ L * L := mul_le_mul h h (by norm_num) (by linarith)
  have h3 : (2 : ℝ) ^ (-150 : ℤ) * 10 ^ 20 ≤ 1 / 1024 * (1 / 1024) := by norm_num
  exact ⟨(show (2 : ℝ) ^ (-150 : ℤ) * 10 ^ 20 ≤ 1 / 1024 by norm_num).trans h, h3.trans h2⟩

/-- A difference of coordinates. -/
theorem diff_fin {a b L : ℝ} (ha : Rep a) (hb : Rep b) (h1 : |a| ≤ L) (h2 : |b| ≤ L) (hL : L ≤ 2 ^ 50) :
    ∃ d, sub (fin a) (fin b) = fin d ∧ Grid d ∧ |d - (a - b)| ≤ 2 / 16777216 * L ∧ |a - b| ≤ 2 * L ∧
      |d - (a - b)| ≤ 1 / 16777216 * |a - b| := by
  have h3 : |a - b| ≤ 2 * L := by have := abs_sub a b; linarith
  have h4 := rnd_add ha.grid hb.neg.grid
  rw [← sub_eq_add_neg, two_neg24] at h4
  refine ⟨_, sub_fin ?_, rnd_grid _, by linarith, h3, h4⟩
  exact h3.trans (by linarith [show 2 * (2 : ℝ) ^ 50 ≤ 2 ^ 127 by norm_num])

/-- A product of differences of coordinates. -/
theorem prod_fin {d e D E L : ℝ} (hd : |d - D| ≤ 2 / 16777216 * L) (he : |e - E| ≤ 2 / 16777216 * L) (hD : |D| ≤ 2 * L)
    (hE : |E| ≤ 2 * L) (hl : 1 / 1024 ≤ L) (hL : L ≤ 2 ^ 50) :
    ∃ p, mul (fin d) (fin e) = fin p ∧ Grid p ∧ |p - D * E| ≤ 25 / 2 / 16777216 * (L * L) ∧ |D * E| ≤ 4 * (L * L) := by
  have hd' := le_of_err hd
  have he' := le_of_err he
  have h0 : 0 ≤ L := by linarith
  have hLL : 0 ≤ L * L := by positivity
  have hη := (eta_scale hl).2
  have r := rnd_mul d e
  have m0 : |D * E| ≤ 4 * (L * L) := by
    rw [abs_mul]
    calc |D| * |E| ≤ (2 * L) * (2 * L) := mul_le_mul hD hE (abs_nonneg _) (by linarith)
      _ = 4 * (L * L) := by ring
  have m1 : |d| * |e| ≤ (2 + 2 / 16777216) * (2 + 2 / 16777216) * (L * L) := by
    calc |d| * |e| ≤ ((2 + 2 / 16777216) * L) * ((2 + 2 / 16777216) * L) :=
          mul_le_mul (by linarith) (by linarith) (abs_nonneg _) (by linarith)
      _ = _ := by ring
  have m2 : |d - D| * |e| ≤ 2 / 16777216 * (2 + 2 / 16777216) * (L * L) := by
    calc |d - D| * |e| ≤ (2 / 16777216 * L) * ((2 + 2 / 16777216) * L) :=
          mul_le_mul hd (by linarith) (abs_nonneg _) (by linarith)
      _ = _ := by ring
  have m3 : |D| * |e - E| ≤ 4 / 16777216 * (L * L) := by
    calc |D| * |e - E| ≤ (2 * L) * (2 / 16777216 * L) := mul_le_mul hD he (abs_nonneg _) (by linarith)
      _ = _ := by ring
  refine ⟨_, mul_fin ?_, rnd_grid _, ?_, m0⟩
  · rw [abs_mul]
    have : L * L ≤ 2 ^ 50 * 2 ^ 50 := mul_le_mul hL hL h0 (by norm_num)
    have b : 5 * ((2 : ℝ) ^ 50 * 2 ^ 50) ≤ 2 ^ 127 := by norm_num
    clear r hη hL
    generalize (2 : ℝ) ^ 50 * 2 ^ 50 = M at *
    generalize (2 : ℝ) ^ 127 = M' at *
    linarith
  · have e1 : rnd (d * e) - D * E = (rnd (d * e) - d * e) + ((d - D) * e + D * (e - E)) := by ring
    rw [e1]
    have a1 := abs_add_le (rnd (d * e) - d * e) ((d - D) * e + D * (e - E))
    have a2 := abs_add_le ((d - D) * e) (D * (e - E))
    rw [abs_mul, abs_mul D] at a2
    rw [two_neg24] at r
    clear hL
    generalize (2 : ℝ) ^ (-150 : ℤ) = η at *
    linarith

/-- A sum of two such products. -/
theorem foot_add {p q P Q L : ℝ} (gp : Grid p) (gq : Grid q) (hp : |p - P| ≤ 25 / 2 / 16777216 * (L * L))
    (hq : |q - Q| ≤ 25 / 2 / 16777216 * (L * L)) (hP : |P| ≤ 4 * (L * L)) (hQ : |Q| ≤ 4 * (L * L)) (h0 : 0 ≤ L) (hL : L ≤ 2 ^ 50) :
    ∃ z, add (fin p) (fin q) = fin z ∧ Grid z ∧ |z - (P + Q)| ≤ 34 / 16777216 * (L * L) ∧ |P + Q| ≤ 8 * (L * L) := by
  have hLL : 0 ≤ L * L := by positivity
  have hp' := le_of_err hp
  have hq' := le_of_err hq
  have t := abs_add_le p q
  have r := rnd_add gp gq
  rw [two_neg24] at r
  refine ⟨_, add_fin ?_, rnd_grid _, ?_, ?_⟩
  · have : L * L ≤ 2 ^ 50 * 2 ^ 50 := mul_le_mul hL hL h0 (by norm_num)
    have b : 10 * ((2 : ℝ) ^ 50 * 2 ^ 50) ≤ 2 ^ 127 := by norm_num
    clear r hL
    generalize (2 : ℝ) ^ 50 * 2 ^ 50 = M at *
    generalize (2 : ℝ) ^ 127 = M' at *
    linarith
  · have e1 : rnd (p + q) - (P + Q) = (rnd (p + q) - (p + q)) + ((p - P) + (q - Q)) := by ring
    rw [e1]
    have a1 := abs_add_le (rnd (p + q) - (p + q)) ((p - P) + (q - Q))
    have a2 := abs_add_le (p - P) (q - Q)
    linarith
  · have := abs_add_le P Q
    linarith

/-- A difference of two such products. -/
theorem foot_sub {p q P Q L : ℝ} (gp : Grid p) (gq : Grid q) (hp : |p - P| ≤ 25 / 2 / 16777216 * (L * L))
    (hq : |q - Q| ≤ 25 / 2 / 16777216 * (L * L)) (hP : |P| ≤ 4 * (L * L)) (hQ : |Q| ≤ 4 * (L * L)) (h0 : 0 ≤ L) (hL : L ≤ 2 ^ 50) :
    ∃ z, sub (fin p) (fin q) = fin z ∧ Grid z ∧ |z - (P - Q)| ≤ 34 / 16777216 * (L * L) ∧ |P - Q| ≤ 8 * (L * L) := by
  rw [sub_eq_add_neg P Q, sub, neg]
  refine foot_add gp ?_ hp ?_ hP (by rwa [abs_neg]) h0 hL
  · obtain ⟨m, e, h1, h2, rfl⟩ := gq
    exact ⟨-m, e, by rwa [abs_neg], h2, by push_cast; ring⟩
  · rw [show -q - -Q = -(q - Q) by ring, abs_neg]
    exact hq

/-- The tolerance of the code. -/
theorem tol_fin : ∃ τ : ℝ, round 0.00001 = fin τ ∧ 0.000009 ≤ τ ∧ τ ≤ 0.000011 := by
  have h : |(0.00001 : ℝ)| = 0.00001 := abs_of_pos (by norm_num)
  have r := rnd_rel (x := 0.00001) (by rw [h]; norm_num)
  rw [h, two_neg24, abs_le] at r
  exact ⟨rnd 0.00001, round_fin (by rw [h]; norm_num), by linarith, by linarith⟩

/-- A quotient by a number that is not tiny. -/
theorem quot_fin {n d M : ℝ} (hd : 2 ^ (-17 : ℤ) ≤ |d|) (hn : |n| ≤ M) (hM : M ≤ 2 ^ 108) :
    ∃ q, div (fin n) (fin d) = fin q ∧ Grid q ∧ q = rnd (n / d) ∧ |q * d - n| ≤ 1 / 16777216 * |n| + 2 ^ (-150 : ℤ) * |d| := by
  have h17 : (2 : ℝ) ^ (-17 : ℤ) = 1 / 131072 := by norm_num
  rw [h17] at hd
  have hd0 : 0 < |d| := by linarith
  have hd1 : d ≠ 0 := abs_pos.1 hd0
  have hq : |n / d| * |d| = |n| := by rw [← abs_mul, div_mul_cancel₀ _ hd1]
  have hb : |n / d| ≤ 2 ^ 127 := by
    rw [abs_div, div_le_iff₀ hd0]
    have : (2 : ℝ) ^ 127 * (1 / 131072) ≤ 2 ^ 127 * |d| := mul_le_mul_of_nonneg_left hd (by positivity)
    have b : (2 : ℝ) ^ 108 ≤ 2 ^ 127 * (1 / 131072) := by norm_num
    exact (hn.trans hM).trans (b.trans this)
  refine ⟨rnd (n / d), ?_, rnd_grid _, rfl, ?_⟩
  · rw [div, if_neg hd1, round_fin hb]
  · have r := rnd_gen (n / d)
    rw [two_neg24] at r
    have e : rnd (n / d) * d - n = (rnd (n / d) - n / d) * d := by
      rw [sub_mul, div_mul_cancel₀ _ hd1]
    rw [e, abs_mul]
    refine (mul_le_mul_of_nonneg_right r hd0.le).trans ?_
    rw [add_mul, mul_assoc, hq]

/-- The parameter on the first segment. -/
theorem param_fin {xa xb gA gB GB rB L : ℝ} (ha : Rep xa) (hb : Rep xb) (h1 : |xa| ≤ L) (h2 : |xb| ≤ L)
    (hA : |gA| ≤ 3 * L) (hB : |gB - GB| ≤ 2 / 16777216 * L) (hB2 : |GB| ≤ 2 * L) (hr : |rB| ≤ 1)
    (hg : 2 ^ (-17 : ℤ) ≤ |gA|) (hl : 1 / 1024 ≤ L) (hL : L ≤ 2 ^ 50) :
    ∃ r, div (add (sub (fin xb) (fin xa)) (mul (fin rB) (fin gB))) (fin gA) = fin r ∧ Grid r ∧
      |r * gA - (xb - xa + rB * GB)| ≤ 16 / 16777216 * L := by
  obtain ⟨w1, e1, g1, k1, k1', -⟩ := diff_fin hb ha h2 h1 hL
  have h0 : 0 ≤ L := by linarith
  have hη := (eta_scale hl).1
  have hB' := le_of_err hB
  have m1 : |rB| * |gB| ≤ (2 + 2 / 16777216) * L := by
    calc |rB| * |gB| ≤ 1 * ((2 + 2 / 16777216) * L) := mul_le_mul hr (by linarith) (abs_nonneg _) (by norm_num)
      _ = _ := one_mul _
  have m2 : |rB| * |gB - GB| ≤ 2 / 16777216 * L := by
    calc |rB| * |gB - GB| ≤ 1 * (2 / 16777216 * L) := mul_le_mul hr hB (abs_nonneg _) (by norm_num)
      _ = _ := one_mul _
  have m3 : |rB * GB| ≤ 2 * L := by
    rw [abs_mul]
    calc |rB| * |GB| ≤ 1 * (2 * L) := mul_le_mul hr hB2 (abs_nonneg _) (by norm_num)
      _ = _ := one_mul _
  have r2 := rnd_mul rB gB
  have e2 : mul (fin rB) (fin gB) = fin (rnd (rB * gB)) := by
    refine mul_fin ?_
    rw [abs_mul]
    exact m1.trans (by linarith [show 3 * (2 : ℝ) ^ 50 ≤ 2 ^ 127 by norm_num])
  have k2 : |rnd (rB * gB) - rB * GB| ≤ 21 / 5 / 16777216 * L := by
    have e : rnd (rB * gB) - rB * GB = (rnd (rB * gB) - rB * gB) + rB * (gB - GB) := by ring
    have a := abs_add_le (rnd (rB * gB) - rB * gB) (rB * (gB - GB))
    rw [e]
    rw [abs_mul rB] at a
    rw [two_neg24] at r2
    clear hL
    generalize (2 : ℝ) ^ (-150 : ℤ) = η at *
    linarith
  have k1'' := le_of_err k1
  have k2' := le_of_err k2
  have t3 := abs_add_le w1 (rnd (rB * gB))
  have r3 := rnd_add g1 (rnd_grid (rB * gB))
  have b3 : |w1 + rnd (rB * gB)| ≤ (4 + 7 / 16777216) * L := by linarith
  have e3 : add (fin w1) (fin (rnd (rB * gB))) = fin (rnd (w1 + rnd (rB * gB))) := by
    refine add_fin (b3.trans ?_)
    linarith [show 5 * (2 : ℝ) ^ 50 ≤ 2 ^ 127 by norm_num]
  rw [e1, e2, e3]
  have k3' := le_of_err r3
  rw [two_neg24] at r3 k3'
  obtain ⟨q, hq, gq, -, kq⟩ := quot_fin (n := rnd (w1 + rnd (rB * gB))) (M := 5 * L) hg (by linarith)
    (by linarith [show 5 * (2 : ℝ) ^ 50 ≤ 2 ^ 108 by norm_num])
  refine ⟨q, hq, gq, ?_⟩
  have e : q * gA - (xb - xa + rB * GB) = (q * gA - rnd (w1 + rnd (rB * gB))) +
      ((rnd (w1 + rnd (rB * gB)) - (w1 + rnd (rB * gB))) + ((w1 - (xb - xa)) + (rnd (rB * gB) - rB * GB))) := by ring
  rw [e]
  have a1 := abs_add_le (q * gA - rnd (w1 + rnd (rB * gB)))
    ((rnd (w1 + rnd (rB * gB)) - (w1 + rnd (rB * gB))) + ((w1 - (xb - xa)) + (rnd (rB * gB) - rB * GB)))
  have a2 := abs_add_le (rnd (w1 + rnd (rB * gB)) - (w1 + rnd (rB * gB))) ((w1 - (xb - xa)) + (rnd (rB * gB) - rB * GB))
  have a3 := abs_add_le (w1 - (xb - xa)) (rnd (rB * gB) - rB * GB)
  have he := eta_pos
  have m4 : (2 : ℝ) ^ (-150 : ℤ) * |gA| ≤ 1 / 10 / 16777216 * L := by
    have : (2 : ℝ) ^ (-150 : ℤ) * |gA| ≤ 2 ^ (-150 : ℤ) * (3 * L) := mul_le_mul_of_nonneg_left hA he.le
    have c : (2 : ℝ) ^ (-150 : ℤ) * 3 ≤ 1 / 10 / 16777216 := by norm_num
    have := mul_le_mul_of_nonneg_right c h0
    linarith
  clear hL
  generalize (2 : ℝ) ^ (-150 : ℤ) = η at *
  linarith

/-- The point on the first segment. -/
theorem point_fin {x g G r L : ℝ} (hx : Rep x) (h1 : |x| ≤ L) (hg : |g - G| ≤ 2 / 16777216 * L) (hG : |G| ≤ 2 * L)
    (hr : |r| ≤ 1) (hl : 1 / 1024 ≤ L) (hL : L ≤ 2 ^ 50) :
    ∃ c, add (fin x) (mul (fin r) (fin g)) = fin c ∧ Rep c ∧ |c - (x + r * G)| ≤ 8 / 16777216 * L := by
  have h0 : 0 ≤ L := by linarith
  have hη := (eta_scale hl).1
  have hg' := le_of_err hg
  have m1 : |r| * |g| ≤ (2 + 2 / 16777216) * L := by
    calc |r| * |g| ≤ 1 * ((2 + 2 / 16777216) * L) := mul_le_mul hr (by linarith) (abs_nonneg _) (by norm_num)
      _ = _ := one_mul _
  have m2 : |r| * |g - G| ≤ 2 / 16777216 * L := by
    calc |r| * |g - G| ≤ 1 * (2 / 16777216 * L) := mul_le_mul hr hg (abs_nonneg _) (by norm_num)
      _ = _ := one_mul _
  have m3 : |r * g| = |r| * |g| := abs_mul _ _
  have r2 := rnd_mul r g
  have k2 := le_of_err r2
  have t := abs_add_le x (rnd (r * g))
  have r3 := rnd_add hx.grid (rnd_grid (r * g))
  have a0 : |x + rnd (r * g)| ≤ (3 + 8 / 16777216) * L := by
    rw [two_neg24] at k2
    clear hL
    generalize (2 : ℝ) ^ (-150 : ℤ) = η at *
    linarith
  have big : 5 * (2 : ℝ) ^ 50 ≤ 2 ^ 127 := by norm_num
  have b1 : |x + rnd (r * g)| ≤ 2 ^ 127 := a0.trans (by linarith)
  refine ⟨rnd (x + rnd (r * g)), ?_, rnd_rep b1, ?_⟩
  · rw [mul_fin (by rw [abs_mul]; exact m1.trans (by linarith)), add_fin b1]
  · have e : rnd (x + rnd (r * g)) - (x + r * G) =
        (rnd (x + rnd (r * g)) - (x + rnd (r * g))) + ((rnd (r * g) - r * g) + r * (g - G)) := by ring
    rw [e]
    have a1 := abs_add_le (rnd (x + rnd (r * g)) - (x + rnd (r * g))) ((rnd (r * g) - r * g) + r * (g - G))
    have a2 := abs_add_le (rnd (r * g) - r * g) (r * (g - G))
    rw [abs_mul r (g - G)] at a2
    rw [two_neg24] at r2 r3
    clear hL big b1
    generalize (2 : ℝ) ^ (-150 : ℤ) = η at *
    linarith

/-- The values that the function computes first. -/
theorem inter_setup {a1 a2 b1 b2 : AlMath.Position2D} {L : ℝ} (ha1 : Fits a1 L) (ha2 : Fits a2 L) (hb1 : Fits b1 L)
    (hb2 : Fits b2 L) (hl : 1 / 1024 ≤ L) (hL : L ≤ 2 ^ 50) (c : Position2D) :
    ∃ gxA gyA gxB gyB den n τ : ℝ,
      (|gxA - (a2.x - a1.x)| ≤ 2 / 16777216 * L ∧ |gxA - (a2.x - a1.x)| ≤ 1 / 16777216 * |a2.x - a1.x| ∧ |a2.x - a1.x| ≤ 2 * L) ∧
      (|gyA - (a2.y - a1.y)| ≤ 2 / 16777216 * L ∧ |gyA - (a2.y - a1.y)| ≤ 1 / 16777216 * |a2.y - a1.y| ∧ |a2.y - a1.y| ≤ 2 * L) ∧
      (|gxB - (b2.x - b1.x)| ≤ 2 / 16777216 * L ∧ |b2.x - b1.x| ≤ 2 * L) ∧
      (|gyB - (b2.y - b1.y)| ≤ 2 / 16777216 * L ∧ |b2.y - b1.y| ≤ 2 * L) ∧
      |den - ((b2.x - b1.x) * (a2.y - a1.y) - (a2.x - a1.x) * (b2.y - b1.y))| ≤ 34 / 16777216 * (L * L) ∧
      |(b2.x - b1.x) * (a2.y - a1.y) - (a2.x - a1.x) * (b2.y - b1.y)| ≤ 8 * (L * L) ∧
      |n - ((a2.y - a1.y) * (a1.x - b1.x) + (a2.x - a1.x) * (b1.y - a1.y))| ≤ 34 / 16777216 * (L * L) ∧
      |(a2.y - a1.y) * (a1.x - b1.x) + (a2.x - a1.x) * (b1.y - a1.y)| ≤ 8 * (L * L) ∧
      (0.000009 ≤ τ ∧ τ ≤ 0.000011) ∧
      intersectionSegment2D (point a1) (point a2) (point b1) (point b2) c =
        (open Classical in
        if lt (abs (fin den)) (fin τ) then (false, c)
        else if lt (div (fin n) (fin den)) (fin 0) ∨ lt (fin 1) (div (fin n) (fin den)) then (false, c)
        else if lt (abs (fin gxA)) (fin τ) ∧ lt (abs (fin gyA)) (fin τ) then (false, c)
        else
          let rA := if lt (abs (fin gxA)) (fin τ) then div (add (sub (fin b1.y) (fin a1.y)) (mul (div (fin n) (fin den)) (fin gyB))) (fin gyA)
            else div (add (sub (fin b1.x) (fin a1.x)) (mul (div (fin n) (fin den)) (fin gxB))) (fin gxA)
          if lt rA (fin 0) ∨ lt (fin 1) rA then (false, c)
          else (true, ⟨add (fin a1.x) (mul rA (fin gxA)), add (fin a1.y) (mul rA (fin gyA))⟩)) := by
  obtain ⟨A1, A2, A3, A4⟩ := ha1
  obtain ⟨B1, B2, B3, B4⟩ := ha2
  obtain ⟨C1, C2, C3, C4⟩ := hb1
  obtain ⟨D1, D2, D3, D4⟩ := hb2
  have h0 : 0 ≤ L := by linarith
  obtain ⟨gxA, e1, g1, k1, l1, m1⟩ := diff_fin B1 A1 B3 A3 hL
  obtain ⟨gyA, e2, g2, k2, l2, m2⟩ := diff_fin B2 A2 B4 A4 hL
  obtain ⟨gxB, e3, g3, k3, l3, m3⟩ := diff_fin D1 C1 D3 C3 hL
  obtain ⟨gyB, e4, g4, k4, l4, m4⟩ := diff_fin D2 C2 D4 C4 hL
  obtain ⟨dx, e5, g5, k5, l5, -⟩ := diff_fin A1 C1 A3 C3 hL
  obtain ⟨dy, e6, g6, k6, l6, -⟩ := diff_fin C2 A2 C4 A4 hL
  obtain ⟨p1, q1, r1, s1, t1⟩ := prod_fin k3 k2 l3 l2 hl hL
  obtain ⟨p2, q2, r2, s2, t2⟩ := prod_fin k1 k4 l1 l4 hl hL
  obtain ⟨p3, q3, r3, s3, t3⟩ := prod_fin k2 k5 l2 l5 hl hL
  obtain ⟨p4, q4, r4, s4, t4⟩ := prod_fin k1 k6 l1 l6 hl hL
  obtain ⟨den, u1, v1, w1, x1⟩ := foot_sub r1 r2 s1 s2 t1 t2 h0 hL
  obtain ⟨n, u2, v2, w2, x2⟩ := foot_add r3 r4 s3 s4 t3 t4 h0 hL
  obtain ⟨τ, h1, h2, h3⟩ := tol_fin
  refine ⟨gxA, gyA, gxB, gyB, den, n, τ, ⟨k1, m1, l1⟩, ⟨k2, m2, l2⟩, ⟨k3, l3⟩, ⟨k4, l4⟩, w1, x1, w2, x2, ⟨h2, h3⟩, ?_⟩
  dsimp only [intersectionSegment2D, xIntersectionSegment2D, point]
  rw [e1, e2, e3, e4, e5, e6, q1, q2, q3, q4, u1, u2, h1]

/-- The computed parameter on the second segment nearly solves its equation. -/
theorem rB_fin {n den N D L : ℝ} (hn : |n - N| ≤ 34 / 16777216 * (L * L)) (hN : |N| ≤ 8 * (L * L))
    (hd : |den - D| ≤ 34 / 16777216 * (L * L)) (hD : |D| ≤ 8 * (L * L)) (ht : 0.000009 ≤ |den|) (h0 : 0 ≤ L) (hL : L ≤ 2 ^ 50) :
    ∃ q, div (fin n) (fin den) = fin q ∧ Grid q ∧ q = rnd (n / den) ∧
      (|q| ≤ 1 → |q * D - N| ≤ 78 / 16777216 * (L * L)) := by
  have hLL : 0 ≤ L * L := by positivity
  have hn' := le_of_err hn
  have hd' := le_of_err hd
  have hM : L * L ≤ 2 ^ 50 * 2 ^ 50 := mul_le_mul hL hL h0 (by norm_num)
  obtain ⟨q, h1, h2, h3, h4⟩ := quot_fin (n := n) (d := den) (M := 9 * (L * L))
    ((show (2 : ℝ) ^ (-17 : ℤ) ≤ 0.000009 by norm_num).trans ht) (by linarith)
    (by linarith [show 9 * ((2 : ℝ) ^ 50 * 2 ^ 50) ≤ 2 ^ 108 by norm_num])
  refine ⟨q, h1, h2, h3, fun hq => ?_⟩
  have m1 : |q| * |D - den| ≤ 34 / 16777216 * (L * L) := by
    rw [abs_sub_comm D]
    calc |q| * |den - D| ≤ 1 * (34 / 16777216 * (L * L)) := mul_le_mul hq hd (abs_nonneg _) (by norm_num)
      _ = _ := one_mul _
  have m4 : (2 : ℝ) ^ (-150 : ℤ) * |den| ≤ 1 / 10 / 16777216 * (L * L) := by
    have a : (2 : ℝ) ^ (-150 : ℤ) * |den| ≤ 2 ^ (-150 : ℤ) * (9 * (L * L)) :=
      mul_le_mul_of_nonneg_left (by linarith) eta_pos.le
    have c : (2 : ℝ) ^ (-150 : ℤ) * 9 ≤ 1 / 10 / 16777216 := by norm_num
    have := mul_le_mul_of_nonneg_right c hLL
    linarith
  have e : q * D - N = q * (D - den) + ((q * den - n) + (n - N)) := by ring
  rw [e]
  have a1 := abs_add_le (q * (D - den)) ((q * den - n) + (n - N))
  have a2 := abs_add_le (q * den - n) (n - N)
  rw [abs_mul] at a1
  clear hL hM
  generalize (2 : ℝ) ^ (-150 : ℤ) = η at *
  linarith

/-- From the coordinate that gives the parameter to the other one. -/
theorem other_coord {r rB Gp Gq Wp Wq Hp Hq L : ℝ} (h1 : |r * Gp - (Wp + rB * Hp)| ≤ 18 / 16777216 * L) (h2 : |Gq| ≤ 2 * L)
    (h3 : |Gq * (Wp + rB * Hp) - Gp * (Wq + rB * Hq)| ≤ 78 / 16777216 * (L * L)) (hg : 2 ^ (-17 : ℤ) ≤ |Gp|) (h0 : 0 ≤ L) :
    |r * Gq - (Wq + rB * Hq)| ≤ 114 / 16777216 * (L * L) / |Gp| := by
  have hp : 0 < |Gp| := lt_of_lt_of_le (two_zpow_pos _) hg
  rw [le_div_iff₀ hp, ← abs_mul]
  have e : (r * Gq - (Wq + rB * Hq)) * Gp = Gq * (r * Gp - (Wp + rB * Hp)) + (Gq * (Wp + rB * Hp) - Gp * (Wq + rB * Hq)) := by ring
  rw [e]
  have a := abs_add_le (Gq * (r * Gp - (Wp + rB * Hp))) (Gq * (Wp + rB * Hp) - Gp * (Wq + rB * Hq))
  rw [abs_mul] at a
  have m : |Gq| * |r * Gp - (Wp + rB * Hp)| ≤ (2 * L) * (18 / 16777216 * L) := mul_le_mul h2 h1 (abs_nonneg _) (by linarith)
  linarith

theorem abs_le_one {x : ℝ} (h : ¬ (lt (fin x) (fin 0) ∨ lt (fin 1) (fin x))) : 0 ≤ x ∧ x ≤ 1 ∧ |x| ≤ 1 := by
  have h1 : ¬ x < 0 := fun k => h (.inl k)
  have h2 : ¬ 1 < x := fun k => h (.inr k)
  push Not at h1 h2
  exact ⟨h1, h2, abs_le.2 ⟨by linarith, h2⟩⟩

/-- If the function says that two segments intersect, the point that it returns is near both, as long as the extent of the first
one from which the parameter is computed is not small. -/
theorem C98_meet {a1 a2 b1 b2 : AlMath.Position2D} {c C : Position2D} {L : ℝ} (ha1 : Fits a1 L) (ha2 : Fits a2 L)
    (hb1 : Fits b1 L) (hb2 : Fits b2 L) (hl : 2 ^ (-10 : ℤ) ≤ L) (hL : L ≤ 2 ^ 50)
    (h : intersectionSegment2D (point a1) (point a2) (point b1) (point b2) c = (true, C)) :
    ∃ P g, C = point P ∧ Rep P.x ∧ Rep P.y ∧ Lead a1 a2 g ∧ NearSeg a1 a2 P (2 ^ (-21 : ℤ) * L) ∧
      NearSeg b1 b2 P (2 ^ (-19 : ℤ) * L + 2 ^ (-17 : ℤ) * L ^ 2 / g) := by
  have h10 : (2 : ℝ) ^ (-10 : ℤ) = 1 / 1024 := by norm_num
  rw [h10] at hl
  have h0 : 0 ≤ L := by linarith
  have hLL : 0 ≤ L * L := by positivity
  obtain ⟨gxA, gyA, gxB, gyB, den, n, τ, ⟨k1, m1, l1⟩, ⟨k2, m2, l2⟩, ⟨k3, l3⟩, ⟨k4, l4⟩, w1, x1, w2, x2, ⟨t1, t2⟩, hr⟩ :=
    inter_setup ha1 ha2 hb1 hb2 hl hL c
  rw [hr] at h
  clear hr
  obtain ⟨A1, A2, A3, A4⟩ := ha1
  obtain ⟨C1, C2, C3, C4⟩ := hb1
  have b1' := le_of_err k1
  have b2' := le_of_err k2
  have h17 : (2 : ℝ) ^ (-17 : ℤ) = 1 / 131072 := by norm_num
  have h16 : (2 : ℝ) ^ (-16 : ℤ) = 1 / 65536 := by norm_num
  have h21 : (2 : ℝ) ^ (-21 : ℤ) = 8 / 16777216 := by norm_num
  have h19 : (2 : ℝ) ^ (-19 : ℤ) = 32 / 16777216 := by norm_num
  have h17' : (2 : ℝ) ^ (-17 : ℤ) = 128 / 16777216 := by norm_num
  by_cases H1 : lt (abs (fin den)) (fin τ)
  · rw [if_pos H1] at h
    exact absurd (congrArg Prod.fst h) (by simp)
  rw [if_neg H1] at h
  have H1' : τ ≤ |den| := not_lt.1 H1
  obtain ⟨q, e1, gq, -, kq⟩ := rB_fin w2 x2 w1 x1 (t1.trans H1') h0 hL
  rw [e1] at h
  by_cases H2 : lt (fin q) (fin 0) ∨ lt (fin 1) (fin q)
  · rw [if_pos H2] at h
    exact absurd (congrArg Prod.fst h) (by simp)
  rw [if_neg H2] at h
  obtain ⟨q0, q1, qa⟩ := abs_le_one H2
  have kq := kq qa
  by_cases H3 : lt (abs (fin gxA)) (fin τ) ∧ lt (abs (fin gyA)) (fin τ)
  · rw [if_pos H3] at h
    exact absurd (congrArg Prod.fst h) (by simp)
  rw [if_neg H3] at h
  -- the two ways to compute the parameter
  have fin_param : ∀ {xa xb gp Gp gB GB : ℝ}, Rep xa → Rep xb → |xa| ≤ L → |xb| ≤ L → |gp - Gp| ≤ 2 / 16777216 * L →
      |gp - Gp| ≤ 1 / 16777216 * |Gp| → |Gp| ≤ 2 * L → |gB - GB| ≤ 2 / 16777216 * L → |GB| ≤ 2 * L → τ ≤ |gp| →
      ∃ r, div (add (sub (fin xb) (fin xa)) (mul (fin q) (fin gB))) (fin gp) = fin r ∧
        2 ^ (-17 : ℤ) ≤ |Gp| ∧ (|r| ≤ 1 → |r * Gp - (xb - xa + q * GB)| ≤ 18 / 16777216 * L) := by
    intro xa xb gp Gp gB GB r1 r2 r3 r4 r5 r6 r7 r8 r9 r10
    have := le_of_err r5
    have := le_of_err r6
    obtain ⟨r, e, -, k⟩ := param_fin r1 r2 r3 r4 (gA := gp) (by linarith) r8 r9 qa (by rw [h17]; linarith) hl hL
    refine ⟨r, e, by rw [h17]; linarith, fun hr => ?_⟩
    have m : |r| * |Gp - gp| ≤ 1 * (2 / 16777216 * L) := by
      rw [abs_sub_comm]
      exact mul_le_mul hr r5 (abs_nonneg _) (by norm_num)
    have e' : r * Gp - (xb - xa + q * GB) = r * (Gp - gp) + (r * gp - (xb - xa + q * GB)) := by ring
    rw [e']
    have a := abs_add_le (r * (Gp - gp)) (r * gp - (xb - xa + q * GB))
    rw [abs_mul] at a
    linarith
  have key : ∃ r g, (open Classical in
      if lt (abs (fin gxA)) (fin τ) then div (add (sub (fin b1.y) (fin a1.y)) (mul (fin q) (fin gyB))) (fin gyA)
      else div (add (sub (fin b1.x) (fin a1.x)) (mul (fin q) (fin gxB))) (fin gxA)) = fin r ∧ Lead a1 a2 g ∧
      (|r| ≤ 1 → |r * (a2.x - a1.x) - (b1.x - a1.x + q * (b2.x - b1.x))| ≤ 18 / 16777216 * L + 114 / 16777216 * (L * L) / g ∧
        |r * (a2.y - a1.y) - (b1.y - a1.y + q * (b2.y - b1.y))| ≤ 18 / 16777216 * L + 114 / 16777216 * (L * L) / g) := by
    by_cases H4 : lt (abs (fin gxA)) (fin τ)
    · rw [if_pos H4]
      have H5 : τ ≤ |gyA| := not_lt.1 fun k => H3 ⟨H4, k⟩
      have H6 : |gxA| < τ := H4
      obtain ⟨r, e, hg, k⟩ := fin_param A2 C2 A4 C4 k2 m2 l2 k4 l4 H5
      have hp : 0 ≤ 114 / 16777216 * (L * L) / |a2.y - a1.y| := by positivity
      refine ⟨r, |a2.y - a1.y|, e, ⟨hg, .inr ⟨rfl, ?_⟩⟩, fun hr => ⟨?_, ?_⟩⟩
      · have := abs_sub_abs_le_abs_sub (a2.x - a1.x) gxA
        rw [abs_sub_comm (a2.x - a1.x) gxA] at this
        rw [h16]
        linarith
      · have := other_coord (Wq := b1.x - a1.x) (Hq := b2.x - b1.x) (k hr) l1 ?_ hg h0
        · linarith
        · rw [← abs_neg]
          convert kq using 2
          ring
      · linarith [k hr]
    · rw [if_neg H4]
      obtain ⟨r, e, hg, k⟩ := fin_param A1 C1 A3 C3 k1 m1 l1 k3 l3 (not_lt.1 H4)
      have hp : 0 ≤ 114 / 16777216 * (L * L) / |a2.x - a1.x| := by positivity
      refine ⟨r, |a2.x - a1.x|, e, ⟨hg, .inl rfl⟩, fun hr => ⟨?_, ?_⟩⟩
      · linarith [k hr]
      · have := other_coord (Wq := b1.y - a1.y) (Hq := b2.y - b1.y) (k hr) l2 ?_ hg h0
        · linarith
        · convert kq using 2
          ring
  obtain ⟨r, g, er, hg, kr⟩ := key
  dsimp only at h
  rw [er] at h
  by_cases H7 : lt (fin r) (fin 0) ∨ lt (fin 1) (fin r)
  · rw [if_pos H7] at h
    exact absurd (congrArg Prod.fst h) (by simp)
  rw [if_neg H7] at h
  obtain ⟨r0, r1, ra⟩ := abs_le_one H7
  obtain ⟨kx, ky⟩ := kr ra
  obtain ⟨cx, ex, hx, dx⟩ := point_fin A1 A3 k1 l1 ra hl hL
  obtain ⟨cy, ey, hy, dy⟩ := point_fin A2 A4 k2 l2 ra hl hL
  have hC := congrArg Prod.snd h
  simp only [ex, ey] at hC
  have hgp : 0 < g := lt_of_lt_of_le (two_zpow_pos _) hg.1
  have hb : 114 / 16777216 * (L * L) / g ≤ 2 ^ (-17 : ℤ) * L ^ 2 / g := by
    rw [h17', sq]
    exact div_le_div_of_nonneg_right (by linarith) hgp.le
  refine ⟨⟨cx, cy⟩, g, hC.symm, hx, hy, hg, ⟨(a1.x + r * (a2.x - a1.x), a1.y + r * (a2.y - a1.y)),
    (AlMath.mem_seg _ _ _).2 ⟨r, r0, r1, rfl, rfl⟩, by rw [h21]; exact dx, by rw [h21]; exact dy⟩,
    ⟨(b1.x + q * (b2.x - b1.x), b1.y + q * (b2.y - b1.y)), (AlMath.mem_seg _ _ _).2 ⟨q, q0, q1, rfl, rfl⟩, ?_, ?_⟩⟩
  · have e : cx - (b1.x + q * (b2.x - b1.x)) =
        (cx - (a1.x + r * (a2.x - a1.x))) + (r * (a2.x - a1.x) - (b1.x - a1.x + q * (b2.x - b1.x))) := by ring
    have a := abs_add_le (cx - (a1.x + r * (a2.x - a1.x))) (r * (a2.x - a1.x) - (b1.x - a1.x + q * (b2.x - b1.x)))
    simp only
    rw [e, h19]
    linarith
  · have e : cy - (b1.y + q * (b2.y - b1.y)) =
        (cy - (a1.y + r * (a2.y - a1.y))) + (r * (a2.y - a1.y) - (b1.y - a1.y + q * (b2.y - b1.y))) := by ring
    have a := abs_add_le (cy - (a1.y + r * (a2.y - a1.y))) (r * (a2.y - a1.y) - (b1.y - a1.y + q * (b2.y - b1.y)))
    simp only
    rw [e, h19]
    linarith

/-- The parameter on the first segment of a crossing. -/
theorem clear_param {xa xb gp Gp gB GB q s t D g δ L : ℝ} (ha : Rep xa) (hb : Rep xb) (h1 : |xa| ≤ L) (h2 : |xb| ≤ L)
    (k1 : |gp - Gp| ≤ 2 / 16777216 * L) (k2 : |gp - Gp| ≤ 1 / 16777216 * |Gp|) (l1 : |Gp| ≤ 2 * L)
    (k3 : |gB - GB| ≤ 2 / 16777216 * L) (l3 : |GB| ≤ 2 * L) (hq : |q| ≤ 1) (hs : |q - s| * D ≤ 174 / 16777216 * (L * L))
    (hD : 0 < D) (hD2 : D ≤ 8 * (L * L)) (ht : 0 ≤ t ∧ t ≤ 1) (heq : xa + t * Gp = xb + s * GB) (hg0 : 1 / 65536 ≤ g) (hg : g ≤ |Gp|)
    (hδ : 1024 / 16777216 * (L * L * L) ≤ δ * D * g) (hl : 1 / 1024 ≤ L) (hL : L ≤ 2 ^ 50) :
    ∃ r, div (add (sub (fin xb) (fin xa)) (mul (fin q) (fin gB))) (fin gp) = fin r ∧ |r - t| ≤ δ := by
  have h0 : 0 ≤ L := by linarith
  have h17 : (2 : ℝ) ^ (-17 : ℤ) = 1 / 131072 := by norm_num
  have := le_of_err k1
  have hgp : 0.99 * g ≤ |gp| := by
    have := abs_sub_abs_le_abs_sub Gp gp
    rw [abs_sub_comm Gp] at this
    linarith
  obtain ⟨r, e, -, k⟩ := param_fin ha hb h1 h2 (gA := gp) (by linarith) k3 l3 hq (by rw [h17]; linarith) hl hL
  refine ⟨r, e, ?_⟩
  have hLLL : 0 ≤ L * L * L := by positivity
  have e1 : (r - t) * gp = (r * gp - (xb - xa + q * GB)) + ((q - s) * GB - t * (gp - Gp)) := by
    linear_combination -heq
  have a1 := abs_add_le (r * gp - (xb - xa + q * GB)) ((q - s) * GB - t * (gp - Gp))
  have a2 := abs_sub ((q - s) * GB) (t * (gp - Gp))
  rw [abs_mul, abs_mul, abs_of_nonneg ht.1] at a2
  have m1 : t * |gp - Gp| ≤ 1 * (2 / 16777216 * L) := mul_le_mul ht.2 k1 (abs_nonneg _) (by norm_num)
  have m2 : |q - s| * |GB| ≤ |q - s| * (2 * L) := mul_le_mul_of_nonneg_left l3 (abs_nonneg _)
  have b1 : |r - t| * |gp| ≤ 18 / 16777216 * L + |q - s| * (2 * L) := by
    rw [← abs_mul, e1]
    linarith
  have b2 : |r - t| * |gp| * D ≤ 492 / 16777216 * (L * L * L) := by
    have c1 := mul_le_mul_of_nonneg_right b1 hD.le
    have c2 : 18 / 16777216 * L * D ≤ 18 / 16777216 * L * (8 * (L * L)) := mul_le_mul_of_nonneg_left hD2 (by positivity)
    have c3 : |q - s| * D * (2 * L) ≤ 174 / 16777216 * (L * L) * (2 * L) := mul_le_mul_of_nonneg_right hs (by positivity)
    nlinarith
  have b3 : |r - t| * (0.99 * g) * D ≤ |r - t| * |gp| * D :=
    mul_le_mul_of_nonneg_right (mul_le_mul_of_nonneg_left hgp (abs_nonneg _)) hD.le
  have b4 : |r - t| * (D * g) ≤ δ * (D * g) := by nlinarith
  exact le_of_mul_le_mul_right b4 (mul_pos hD (by linarith))

/-- The parameter on the second segment of a crossing. -/
theorem clear_quot {n den s D L : ℝ} (w2 : |n - s * D| ≤ 34 / 16777216 * (L * L)) (x2 : |s * D| ≤ 8 * (L * L))
    (w1 : |den - D| ≤ 34 / 16777216 * (L * L)) (x1 : |D| ≤ 8 * (L * L)) (hden : 1 / 131072 ≤ |den|) (hden0 : 9 / 20 * |D| ≤ |den|)
    (hs : 0 ≤ s ∧ s ≤ 1) (h0 : 0 ≤ L) (hL : L ≤ 2 ^ 50) :
    ∃ q, div (fin n) (fin den) = fin q ∧ |q - s| * |D| ≤ 174 / 16777216 * (L * L) := by
  have h17 : (2 : ℝ) ^ (-17 : ℤ) = 1 / 131072 := by norm_num
  have hLL : 0 ≤ L * L := by positivity
  have hn' := le_of_err w2
  have hd' := le_of_err w1
  have hM : L * L ≤ 2 ^ 50 * 2 ^ 50 := mul_le_mul hL hL h0 (by norm_num)
  obtain ⟨q, e1, gq, -, kq⟩ := quot_fin (n := n) (d := den) (M := 9 * (L * L)) (by rw [h17]; exact hden) (by linarith)
    (by linarith [show 9 * ((2 : ℝ) ^ 50 * 2 ^ 50) ≤ 2 ^ 108 by norm_num])
  have m4 : (2 : ℝ) ^ (-150 : ℤ) * |den| ≤ 1 / 10 / 16777216 * (L * L) := by
    have a : (2 : ℝ) ^ (-150 : ℤ) * |den| ≤ 2 ^ (-150 : ℤ) * (9 * (L * L)) :=
      mul_le_mul_of_nonneg_left (by linarith) eta_pos.le
    have c : (2 : ℝ) ^ (-150 : ℤ) * 9 ≤ 1 / 10 / 16777216 := by norm_num
    have := mul_le_mul_of_nonneg_right c hLL
    linarith
  refine ⟨q, e1, ?_⟩
  have hqs : |q - s| * |D| ≤ 174 / 16777216 * (L * L) := by
    have e : (q - s) * den = (q * den - n) + ((n - s * D) - s * (den - D)) := by ring
    have a1 := abs_add_le (q * den - n) ((n - s * D) - s * (den - D))
    have a2 := abs_sub (n - s * D) (s * (den - D))
    rw [abs_mul, abs_of_nonneg hs.1] at a2
    have m : s * |den - D| ≤ 1 * (34 / 16777216 * (L * L)) := mul_le_mul hs.2 w1 (abs_nonneg _) (by norm_num)
    have b : |q - s| * |den| ≤ 78 / 16777216 * (L * L) := by
      rw [← abs_mul, e]
      clear hM hL
      generalize (2 : ℝ) ^ (-150 : ℤ) = η at *
      linarith
    have b2 : |q - s| * (9 / 20 * |D|) ≤ |q - s| * |den| := mul_le_mul_of_nonneg_left hden0 (abs_nonneg _)
    linarith
  exact hqs

/-- Segments that clearly cross are said to intersect. -/
theorem C98_cross {a1 a2 b1 b2 : AlMath.Position2D} {L : ℝ} (ha1 : Fits a1 L) (ha2 : Fits a2 L) (hb1 : Fits b1 L)
    (hb2 : Fits b2 L) (hl : 2 ^ (-10 : ℤ) ≤ L) (hL : L ≤ 2 ^ 50) (h : ClearCrossing a1 a2 b1 b2 L) (c : Position2D) :
    ∃ C, intersectionSegment2D (point a1) (point a2) (point b1) (point b2) c = (true, C) := by
  have h10 : (2 : ℝ) ^ (-10 : ℤ) = 1 / 1024 := by norm_num
  rw [h10] at hl
  have h0 : 0 ≤ L := by linarith
  have hLL : 0 ≤ L * L := by positivity
  obtain ⟨gxA, gyA, gxB, gyB, den, n, τ, ⟨k1, m1, l1⟩, ⟨k2, m2, l2⟩, ⟨k3, l3⟩, ⟨k4, l4⟩, w1, x1, w2, x2, ⟨t1, t2⟩, hr⟩ :=
    inter_setup ha1 ha2 hb1 hb2 hl hL c
  rw [hr]
  clear hr
  obtain ⟨A1, A2, A3, A4⟩ := ha1
  obtain ⟨C1, C2, C3, C4⟩ := hb1
  obtain ⟨hang, s, t, δ, g, heqx, heqy, s0, s1, t0, t1', ⟨g0, hg⟩, d1, d2⟩ := h
  have h17 : (2 : ℝ) ^ (-17 : ℤ) = 1 / 131072 := by norm_num
  have h16 : (2 : ℝ) ^ (-16 : ℤ) = 1 / 65536 := by norm_num
  have h18 : (2 : ℝ) ^ (-18 : ℤ) = 64 / 16777216 := by norm_num
  have h14 : (2 : ℝ) ^ (-14 : ℤ) = 1024 / 16777216 := by norm_num
  have h16' : (2 : ℝ) ^ (-16 : ℤ) = 256 / 16777216 := by norm_num
  have hDa : |AlMath.Spec.crossDir a1 a2 b1 b2| = |(b2.x - b1.x) * (a2.y - a1.y) - (a2.x - a1.x) * (b2.y - b1.y)| := by
    rw [AlMath.Spec.crossDir, ← abs_neg]
    congr 1
    ring
  rw [hDa] at hang d1 d2
  rw [h16'] at d1
  rw [h14] at d2
  rw [h16] at hang g0
  rw [h17] at hg
  rw [h18] at hang
  rw [show L ^ 2 = L * L by ring] at hang d1
  rw [show L ^ 3 = L * L * L by ring] at d2
  have hN : (a2.y - a1.y) * (a1.x - b1.x) + (a2.x - a1.x) * (b1.y - a1.y) =
      s * ((b2.x - b1.x) * (a2.y - a1.y) - (a2.x - a1.x) * (b2.y - b1.y)) := by
    linear_combination (a2.y - a1.y) * heqx - (a2.x - a1.x) * heqy
  rw [hN] at w2 x2
  obtain ⟨D, hD⟩ : ∃ D, D = (b2.x - b1.x) * (a2.y - a1.y) - (a2.x - a1.x) * (b2.y - b1.y) := ⟨_, rfl⟩
  rw [← hD] at hang d1 d2 w1 w2 x1 x2
  have hδ : 0 ≤ δ := by
    by_contra hc
    push Not at hc
    have : 0 < |D| := by linarith
    nlinarith
  have hDen : |D| ≤ |den| + 34 / 16777216 * (L * L) := by
    have := abs_sub_abs_le_abs_sub D den
    rw [abs_sub_comm D] at this
    linarith
  have H1 : ¬ lt (abs (fin den)) (fin τ) := not_lt.2 (show τ ≤ |den| by linarith)
  rw [if_neg H1]
  have hD0 : 0 < |D| := by linarith
  have hden0 : 9 / 20 * |D| ≤ |den| := by linarith
  obtain ⟨q, e1, hqs⟩ := clear_quot w2 x2 w1 x1 (by linarith) hden0 ⟨by linarith, by linarith⟩ h0 hL
  have hqδ : |q - s| ≤ δ := by
    refine le_of_mul_le_mul_right ?_ hD0
    linarith
  have hq := abs_le.1 hqδ
  have q0 : 0 ≤ q := by linarith
  have q1 : q ≤ 1 := by linarith
  have qa : |q| ≤ 1 := abs_le.2 ⟨by linarith, q1⟩
  rw [e1]
  have H2 : ¬ (lt (fin q) (fin 0) ∨ lt (fin 1) (fin q)) := by
    rintro (k | k)
    · exact absurd (show q < 0 from k) (not_lt.2 q0)
    · exact absurd (show 1 < q from k) (not_lt.2 q1)
  rw [if_neg H2]
  have ht01 : 0 ≤ t ∧ t ≤ 1 := ⟨by linarith, by linarith⟩
  have near : ∀ {gp Gp : ℝ}, |gp - Gp| ≤ 1 / 16777216 * |Gp| → g ≤ |Gp| → τ ≤ |gp| := by
    intro gp Gp k hg
    have := abs_sub_abs_le_abs_sub Gp gp
    rw [abs_sub_comm Gp] at this
    linarith
  have far : ∀ {gp Gp : ℝ}, |gp - Gp| ≤ 1 / 16777216 * |Gp| → |Gp| ≤ 1 / 131072 → |gp| < τ := by
    intro gp Gp k hg
    have := le_of_err k
    linarith
  have key : ∃ r, (¬ (lt (abs (fin gxA)) (fin τ) ∧ lt (abs (fin gyA)) (fin τ))) ∧ (open Classical in
      if lt (abs (fin gxA)) (fin τ) then div (add (sub (fin b1.y) (fin a1.y)) (mul (fin q) (fin gyB))) (fin gyA)
      else div (add (sub (fin b1.x) (fin a1.x)) (mul (fin q) (fin gxB))) (fin gxA)) = fin r ∧ |r - t| ≤ δ := by
    rcases hg with hg | ⟨hx, hg⟩
    · have H4 : ¬ lt (abs (fin gxA)) (fin τ) := not_lt.2 (near m1 hg)
      obtain ⟨r, e, k⟩ := clear_param A1 C1 A3 C3 k1 m1 l1 k3 l3 qa hqs hD0 x1 ht01 heqx g0 hg d2 hl hL
      exact ⟨r, fun k => H4 k.1, by rw [if_neg H4]; exact e, k⟩
    · have H4 : lt (abs (fin gxA)) (fin τ) := far m1 hx
      have H5 : ¬ lt (abs (fin gyA)) (fin τ) := not_lt.2 (near m2 hg)
      obtain ⟨r, e, k⟩ := clear_param A2 C2 A4 C4 k2 m2 l2 k4 l4 qa hqs hD0 x1 ht01 heqy g0 hg d2 hl hL
      exact ⟨r, fun k => H5 k.2, by rw [if_pos H4]; exact e, k⟩
  obtain ⟨r, H3, er, kr⟩ := key
  rw [if_neg H3]
  dsimp only
  rw [er]
  have hr := abs_le.1 kr
  have H7 : ¬ (lt (fin r) (fin 0) ∨ lt (fin 1) (fin r)) := by
    rintro (k | k)
    · exact absurd (show r < 0 from k) (not_lt.2 (by linarith))
    · exact absurd (show 1 < r from k) (not_lt.2 (by linarith))
  rw [if_neg H7]
  exact ⟨_, rfl⟩

/-! ### Points in boxes, and boxes -/

theorem isSide_map (box : List AlMath.Position2D) (u' v' : Position2D) :
    IsSide (box.map point) u' v' ↔ ∃ u v, AlMath.Spec.IsSide box u v ∧ u' = point u ∧ v' = point v := by
  constructor
  · rintro ⟨i, hi, h1, h2⟩
    rw [List.length_map] at hi h2
    rw [List.getElem?_map, Option.map_eq_some_iff] at h1 h2
    obtain ⟨u, h1, rfl⟩ := h1
    obtain ⟨v, h2, rfl⟩ := h2
    exact ⟨u, v, ⟨i, hi, h1, h2⟩, rfl, rfl⟩
  · rintro ⟨u, v, ⟨i, hi, h1, h2⟩, rfl, rfl⟩
    refine ⟨i, by rwa [List.length_map], ?_, ?_⟩
    · rw [List.getElem?_map, h1]
      rfl
    · rw [List.length_map, List.getElem?_map, h2]
      rfl

theorem isSide_fits {box : List AlMath.Position2D} {L : ℝ} (h : ∀ v ∈ box, Fits v L) {u v : AlMath.Position2D}
    (hs : AlMath.Spec.IsSide box u v) : Fits u L ∧ Fits v L := by
  obtain ⟨i, -, h1, h2⟩ := hs
  exact ⟨h u (List.mem_of_getElem? h1), h v (List.mem_of_getElem? h2)⟩

theorem right_fin {u v p : AlMath.Position2D} {L : ℝ} (hu : Fits u L) (hv : Fits v L) (hp : Fits p L) (hl : 1 / 1024 ≤ L)
    (hL : L ≤ 2 ^ 50) :
    (Right (point u) (point v) (point p) → AlMath.Spec.side u v p.pt < 2 ^ (-18 : ℤ) * L ^ 2) ∧
    (AlMath.Spec.side u v p.pt ≤ -(2 ^ (-18 : ℤ) * L ^ 2) → Right (point u) (point v) (point p)) := by
  obtain ⟨A1, A2, A3, A4⟩ := hu
  obtain ⟨B1, B2, B3, B4⟩ := hv
  obtain ⟨C1, C2, C3, C4⟩ := hp
  have h0 : 0 < L := by linarith
  obtain ⟨dx, e1, g1, k1, l1, -⟩ := diff_fin B1 A1 B3 A3 hL
  obtain ⟨dy, e2, g2, k2, l2, -⟩ := diff_fin B2 A2 B4 A4 hL
  obtain ⟨tx, e3, g3, k3, l3, -⟩ := diff_fin C1 A1 C3 A3 hL
  obtain ⟨ty, e4, g4, k4, l4, -⟩ := diff_fin C2 A2 C4 A4 hL
  obtain ⟨p1, q1, r1, s1, t1⟩ := prod_fin k1 k4 l1 l4 hl hL
  obtain ⟨p2, q2, r2, s2, t2⟩ := prod_fin k2 k3 l2 l3 hl hL
  obtain ⟨det, u1, v1, w1, x1⟩ := foot_sub r1 r2 s1 s2 t1 t2 h0.le hL
  have hd : AlMath.Spec.side u v p.pt = (v.x - u.x) * (p.y - u.y) - (v.y - u.y) * (p.x - u.x) := rfl
  have hR : Right (point u) (point v) (point p) ↔ det < 0 := by
    simp only [Right, point, e1, e2, e3, e4, q1, q2, u1, le, lt, eq]
    rw [← le_iff_lt_or_eq, not_le]
  rw [hR, hd, show (2 : ℝ) ^ (-18 : ℤ) = 64 / 16777216 by norm_num, show L ^ 2 = L * L by ring]
  have hLL : 0 < L * L := by positivity
  have w := abs_le.1 w1
  constructor <;> intro h <;> linarith

/-- The test of a point and a box always returns. If it says that the point is inside, the point is on the right of all sides
or at least close to them. A point that is clearly on the right of all sides is said to be inside. -/
theorem C98_inside {box : List AlMath.Position2D} {p : AlMath.Position2D} {L : ℝ} (hb : ∀ v ∈ box, Fits v L) (hp : Fits p L)
    (hl : 2 ^ (-10 : ℤ) ≤ L) (hL : L ≤ 2 ^ 50) :
    ∃ r, xPointsInsideBox (box.map point) (point p) = .ok r ∧
      (r = true → ∀ u v, AlMath.Spec.IsSide box u v → AlMath.Spec.side u v p.pt < 2 ^ (-18 : ℤ) * L ^ 2) ∧
      ((∀ u v, AlMath.Spec.IsSide box u v → AlMath.Spec.side u v p.pt ≤ -(2 ^ (-18 : ℤ) * L ^ 2)) → r = true) := by
  have h10 : (2 : ℝ) ^ (-10 : ℤ) = 1 / 1024 := by norm_num
  rw [h10] at hl
  obtain ⟨r, h1, h2⟩ := inside_eq (box.map point) (point p)
  refine ⟨r, h1, fun h u v huv => ?_, fun h => h2.2 fun u' v' hs => ?_⟩
  · obtain ⟨hu, hv⟩ := isSide_fits hb huv
    exact (right_fin hu hv hp hl hL).1 (h2.1 h _ _ ((isSide_map _ _ _).2 ⟨u, v, huv, rfl, rfl⟩))
  · obtain ⟨u, v, huv, rfl, rfl⟩ := (isSide_map _ _ _).1 hs
    obtain ⟨hu, hv⟩ := isSide_fits hb huv
    exact (right_fin hu hv hp hl hL).2 (h u v huv)

/-- The test of two boxes always returns, whatever their vertices: NaN, infinities, no vertex at all. -/
theorem C98_total (a b : List Position2D) : ∃ r, areTwoBoxesInCollision a b = .ok r := by
  obtain ⟨r, h, -⟩ := collision_eq a b
  exact ⟨r, h⟩

theorem head_map {a : List AlMath.Position2D} {a0 : Position2D} :
    (a.map point)[0]? = some a0 ↔ ∃ p, a[0]? = some p ∧ a0 = point p := by
  rw [List.getElem?_map, Option.map_eq_some_iff]
  constructor
  · rintro ⟨p, h, rfl⟩
    exact ⟨p, h, rfl⟩
  · rintro ⟨p, h, rfl⟩
    exact ⟨p, h, rfl⟩

/-- If two boxes are said to collide, a side of the first and a side of the second come close to a common point, or the first
vertex of one is on the right of all sides of the other or close to them. -/
theorem C98_boxes_true {a b : List AlMath.Position2D} {L : ℝ} (ha : ∀ v ∈ a, Fits v L) (hb : ∀ v ∈ b, Fits v L)
    (hl : 2 ^ (-10 : ℤ) ≤ L) (hL : L ≤ 2 ^ 50) (h : areTwoBoxesInCollision (a.map point) (b.map point) = .ok true) :
    (∃ a1 a2 b1 b2 P g, AlMath.Spec.IsSide a a1 a2 ∧ AlMath.Spec.IsSide b b1 b2 ∧ Lead a1 a2 g ∧
      NearSeg a1 a2 P (2 ^ (-21 : ℤ) * L) ∧ NearSeg b1 b2 P (2 ^ (-19 : ℤ) * L + 2 ^ (-17 : ℤ) * L ^ 2 / g)) ∨
    (∃ p, a[0]? = some p ∧ ∀ u v, AlMath.Spec.IsSide b u v → AlMath.Spec.side u v p.pt < 2 ^ (-18 : ℤ) * L ^ 2) ∨
    (∃ p, b[0]? = some p ∧ ∀ u v, AlMath.Spec.IsSide a u v → AlMath.Spec.side u v p.pt < 2 ^ (-18 : ℤ) * L ^ 2) := by
  obtain ⟨r, h1, h2⟩ := collision_eq (a.map point) (b.map point)
  rw [h] at h1
  injection h1 with h1
  have inside : ∀ {c d : List AlMath.Position2D}, (∀ v ∈ c, Fits v L) → (∀ v ∈ d, Fits v L) →
      (∃ c0, (c.map point)[0]? = some c0 ∧ ∀ u v, IsSide (d.map point) u v → Right u v c0) →
      ∃ p, c[0]? = some p ∧ ∀ u v, AlMath.Spec.IsSide d u v → AlMath.Spec.side u v p.pt < 2 ^ (-18 : ℤ) * L ^ 2 := by
    rintro c d hc hd ⟨c0, h3, h4⟩
    obtain ⟨p, hp, rfl⟩ := head_map.1 h3
    refine ⟨p, hp, fun u v huv => ?_⟩
    obtain ⟨hu, hv⟩ := isSide_fits hd huv
    have h10 : (2 : ℝ) ^ (-10 : ℤ) = 1 / 1024 := by norm_num
    exact (right_fin hu hv (hc p (List.mem_of_getElem? hp)) (by rwa [h10] at hl) hL).1
      (h4 _ _ ((isSide_map _ _ _).2 ⟨u, v, huv, rfl, rfl⟩))
  rcases h2.1 h1.symm with ⟨a1', a2', b1', b2', hA, hB, hm⟩ | h3 | h3
  · obtain ⟨a1, a2, sA, rfl, rfl⟩ := (isSide_map _ _ _).1 hA
    obtain ⟨b1, b2, sB, rfl, rfl⟩ := (isSide_map _ _ _).1 hB
    obtain ⟨f1, f2⟩ := isSide_fits ha sA
    obtain ⟨f3, f4⟩ := isSide_fits hb sB
    obtain ⟨P, g, -, -, -, k1, k2, k3⟩ := C98_meet f1 f2 f3 f4 hl hL (C := (intersectionSegment2D (point a1) (point a2)
      (point b1) (point b2) ⟨fin 0, fin 0⟩).2) (Prod.ext hm rfl)
    exact .inl ⟨a1, a2, b1, b2, P, g, sA, sB, k1, k2, k3⟩
  · exact .inr (.inl (inside ha hb h3))
  · exact .inr (.inr (inside hb ha h3))

/-- Boxes of which two sides clearly cross, or of which one has its first vertex clearly inside the other, are said to collide. -/
theorem C98_boxes_found {a b : List AlMath.Position2D} {L : ℝ} (ha : ∀ v ∈ a, Fits v L) (hb : ∀ v ∈ b, Fits v L)
    (hl : 2 ^ (-10 : ℤ) ≤ L) (hL : L ≤ 2 ^ 50)
    (h : (∃ a1 a2 b1 b2, AlMath.Spec.IsSide a a1 a2 ∧ AlMath.Spec.IsSide b b1 b2 ∧ ClearCrossing a1 a2 b1 b2 L) ∨
      (∃ p, a[0]? = some p ∧ ∀ u v, AlMath.Spec.IsSide b u v → AlMath.Spec.side u v p.pt ≤ -(2 ^ (-18 : ℤ) * L ^ 2)) ∨
      (∃ p, b[0]? = some p ∧ ∀ u v, AlMath.Spec.IsSide a u v → AlMath.Spec.side u v p.pt ≤ -(2 ^ (-18 : ℤ) * L ^ 2))) :
    areTwoBoxesInCollision (a.map point) (b.map point) = .ok true := by
  obtain ⟨r, h1, h2⟩ := collision_eq (a.map point) (b.map point)
  have inside : ∀ {c d : List AlMath.Position2D}, (∀ v ∈ c, Fits v L) → (∀ v ∈ d, Fits v L) →
      (∃ p, c[0]? = some p ∧ ∀ u v, AlMath.Spec.IsSide d u v → AlMath.Spec.side u v p.pt ≤ -(2 ^ (-18 : ℤ) * L ^ 2)) →
      ∃ c0, (c.map point)[0]? = some c0 ∧ ∀ u v, IsSide (d.map point) u v → Right u v c0 := by
    rintro c d hc hd ⟨p, hp, h4⟩
    refine ⟨point p, head_map.2 ⟨p, hp, rfl⟩, fun u' v' hs => ?_⟩
    obtain ⟨u, v, huv, rfl, rfl⟩ := (isSide_map _ _ _).1 hs
    obtain ⟨hu, hv⟩ := isSide_fits hd huv
    have h10 : (2 : ℝ) ^ (-10 : ℤ) = 1 / 1024 := by norm_num
    exact (right_fin hu hv (hc p (List.mem_of_getElem? hp)) (by rwa [h10] at hl) hL).2 (h4 u v huv)
  rw [h1]
  congr 1
  refine h2.2 ?_
  rcases h with ⟨a1, a2, b1, b2, hA, hB, hc⟩ | h3 | h3
  · obtain ⟨f1, f2⟩ := isSide_fits ha hA
    obtain ⟨f3, f4⟩ := isSide_fits hb hB
    obtain ⟨C, hC⟩ := C98_cross f1 f2 f3 f4 hl hL hc ⟨fin 0, fin 0⟩
    exact .inl ⟨_, _, _, _, (isSide_map _ _ _).2 ⟨a1, a2, hA, rfl, rfl⟩, (isSide_map _ _ _).2 ⟨b1, b2, hB, rfl, rfl⟩,
      congrArg Prod.fst hC⟩
  · exact .inr (.inl (inside ha hb h3))
  · exact .inr (.inr (inside hb ha h3))

/-! ### A false crossing -/

theorem grid_dyadic {x : ℝ} (m : ℤ) (k : ℕ) (hm : |m| < 2 ^ 24) (hk : k ≤ 149) (h : x = m / 2 ^ k) : Grid x :=
  ⟨m, -k, hm, by omega, by rw [h, zpow_neg, zpow_natCast, div_eq_mul_inv]⟩

theorem sub_exact {a b c : ℝ} (h : a - b = c) (g : Grid c) (hb : |c| ≤ 2 ^ 127) : sub (fin a) (fin b) = fin c := by
  rw [sub_fin (by rwa [h]), h, rnd_of_grid g]

theorem mul_exact {a b c : ℝ} (h : a * b = c) (g : Grid c) (hb : |c| ≤ 2 ^ 127) : mul (fin a) (fin b) = fin c := by
  rw [mul_fin (by rwa [h]), h, rnd_of_grid g]

theorem add_exact {a b c : ℝ} (h : a + b = c) (g : Grid c) (hb : |c| ≤ 2 ^ 127) : add (fin a) (fin b) = fin c := by
  rw [add_fin (by rwa [h]), h, rnd_of_grid g]

/-- Two segments that are more than 8 mm apart, with coordinates of at most 1 m, are said to intersect. The first one is nearly
vertical: its extent along x is just above the tolerance. With exact arithmetic the same formulas find no intersection. -/
theorem C98_false_crossing : ∃ a1 a2 b1 b2 : AlMath.Position2D, Fits a1 1 ∧ Fits a2 1 ∧ Fits b1 1 ∧ Fits b2 1 ∧
    (∀ c, (intersectionSegment2D (point a1) (point a2) (point b1) (point b2) c).1 = true) ∧
    (∀ c, (AlMath.intersectionSegment2D a1 a2 b1 b2 c).1 = false) ∧
    ∀ z ∈ AlMath.Spec.seg a1 a2, ∀ w ∈ AlMath.Spec.seg b1 b2, 0.008 ^ 2 ≤ (z.1 - w.1) ^ 2 + (z.2 - w.2) ^ 2 := by
  have hfar : ∀ z ∈ AlMath.Spec.seg ⟨3 / 4, -3 / 4⟩ ⟨49153 / 65536, 7 / 8⟩,
      ∀ w ∈ AlMath.Spec.seg ⟨-1, 5 / 16⟩ ⟨15 / 16, -7 / 8⟩, (0.008 : ℝ) ^ 2 ≤ (z.1 - w.1) ^ 2 + (z.2 - w.2) ^ 2 := by
    intro z hz w hw
    obtain ⟨s, s0, s1, e1, e2⟩ := (AlMath.mem_seg _ _ _).1 hz
    obtain ⟨t, t0, t1, e3, e4⟩ := (AlMath.mem_seg _ _ _).1 hw
    simp only at e1 e2 e3 e4
    have h : 0.0195 ≤ 1.1875 * (z.1 - w.1) + 1.9375 * (z.2 - w.2) := by
      rw [e1, e2, e3, e4]
      ring_nf
      linarith
    nlinarith [sq_nonneg (1.9375 * (z.1 - w.1) - 1.1875 * (z.2 - w.2))]
  refine ⟨⟨3 / 4, -3 / 4⟩, ⟨49153 / 65536, 7 / 8⟩, ⟨-1, 5 / 16⟩, ⟨15 / 16, -7 / 8⟩, ?_, ?_, ?_, ?_, ?_, ?_, hfar⟩
  · exact ⟨grid_rep (grid_dyadic 3 2 (by norm_num) (by norm_num) (by norm_num)) (by norm_num [abs_of_pos]),
      grid_rep (grid_dyadic (-3) 2 (by norm_num) (by norm_num) (by norm_num)) (by norm_num [abs_lt]),
      by norm_num [abs_le], by norm_num [abs_le]⟩
  · exact ⟨grid_rep (grid_dyadic 49153 16 (by norm_num) (by norm_num) (by norm_num)) (by norm_num [abs_lt]),
      grid_rep (grid_dyadic 7 3 (by norm_num) (by norm_num) (by norm_num)) (by norm_num [abs_lt]),
      by norm_num [abs_le], by norm_num [abs_le]⟩
  · exact ⟨grid_rep (grid_dyadic (-1) 0 (by norm_num) (by norm_num) (by norm_num)) (by norm_num [abs_lt]),
      grid_rep (grid_dyadic 5 4 (by norm_num) (by norm_num) (by norm_num)) (by norm_num [abs_lt]),
      by norm_num [abs_le], by norm_num [abs_le]⟩
  · exact ⟨grid_rep (grid_dyadic 15 4 (by norm_num) (by norm_num) (by norm_num)) (by norm_num [abs_lt]),
      grid_rep (grid_dyadic (-7) 3 (by norm_num) (by norm_num) (by norm_num)) (by norm_num [abs_lt]),
      by norm_num [abs_le], by norm_num [abs_le]⟩
  · intro c
    obtain ⟨τ, ht, t1, t2⟩ := tol_fin
    have e1 : sub (fin (49153 / 65536)) (fin (3 / 4)) = fin (1 / 65536) :=
      sub_exact (by norm_num) (grid_dyadic 1 16 (by norm_num) (by norm_num) (by norm_num)) (by norm_num [abs_le])
    have e2 : sub (fin (7 / 8)) (fin (-3 / 4)) = fin (13 / 8) :=
      sub_exact (by norm_num) (grid_dyadic 13 3 (by norm_num) (by norm_num) (by norm_num)) (by norm_num [abs_le])
    have e3 : sub (fin (15 / 16)) (fin (-1)) = fin (31 / 16) :=
      sub_exact (by norm_num) (grid_dyadic 31 4 (by norm_num) (by norm_num) (by norm_num)) (by norm_num [abs_le])
    have e4 : sub (fin (-7 / 8)) (fin (5 / 16)) = fin (-19 / 16) :=
      sub_exact (by norm_num) (grid_dyadic (-19) 4 (by norm_num) (by norm_num) (by norm_num)) (by norm_num [abs_le])
    have e5 : sub (fin (3 / 4)) (fin (-1)) = fin (7 / 4) :=
      sub_exact (by norm_num) (grid_dyadic 7 2 (by norm_num) (by norm_num) (by norm_num)) (by norm_num [abs_le])
    have e6 : sub (fin (5 / 16)) (fin (-3 / 4)) = fin (17 / 16) :=
      sub_exact (by norm_num) (grid_dyadic 17 4 (by norm_num) (by norm_num) (by norm_num)) (by norm_num [abs_le])
    have e7 : sub (fin (-1)) (fin (3 / 4)) = fin (-7 / 4) :=
      sub_exact (by norm_num) (grid_dyadic (-7) 2 (by norm_num) (by norm_num) (by norm_num)) (by norm_num [abs_le])
    have q1 : mul (fin (31 / 16)) (fin (13 / 8)) = fin (403 / 128) :=
      mul_exact (by norm_num) (grid_dyadic 403 7 (by norm_num) (by norm_num) (by norm_num)) (by norm_num [abs_le])
    have q2 : mul (fin (1 / 65536)) (fin (-19 / 16)) = fin (-19 / 1048576) :=
      mul_exact (by norm_num) (grid_dyadic (-19) 20 (by norm_num) (by norm_num) (by norm_num)) (by norm_num [abs_le])
    have q3 : mul (fin (13 / 8)) (fin (7 / 4)) = fin (91 / 32) :=
      mul_exact (by norm_num) (grid_dyadic 91 5 (by norm_num) (by norm_num) (by norm_num)) (by norm_num [abs_le])
    have q4 : mul (fin (1 / 65536)) (fin (17 / 16)) = fin (17 / 1048576) :=
      mul_exact (by norm_num) (grid_dyadic 17 20 (by norm_num) (by norm_num) (by norm_num)) (by norm_num [abs_le])
    have u1 : sub (fin (403 / 128)) (fin (-19 / 1048576)) = fin (3301395 / 1048576) :=
      sub_exact (by norm_num) (grid_dyadic 3301395 20 (by norm_num) (by norm_num) (by norm_num)) (by norm_num [abs_le])
    have u2 : add (fin (91 / 32)) (fin (17 / 1048576)) = fin (2981905 / 1048576) :=
      add_exact (by norm_num) (grid_dyadic 2981905 20 (by norm_num) (by norm_num) (by norm_num)) (by norm_num [abs_le])
    have d1 : div (fin (2981905 / 1048576)) (fin (3301395 / 1048576)) = fin (15153614 / 16777216) := by
      rw [div, if_neg (by norm_num), round_fin (by norm_num [abs_le])]
      congr 1
      rw [rnd_eq (k := -1) (m := 15153614) (by norm_num [abs_of_pos]) (by norm_num [abs_of_pos]) (by norm_num)
        (by norm_num [abs_lt])]
      norm_num
    have d2 : mul (fin (15153614 / 16777216)) (fin (31 / 16)) = fin (7 / 4) := by
      rw [mul_fin (by norm_num [abs_le])]
      congr 1
      rw [rnd_eq (k := 0) (m := 14680064) (by norm_num [abs_of_pos]) (by norm_num [abs_of_pos]) (by norm_num)
        (by norm_num [abs_lt])]
      norm_num
    have d3 : add (fin (-7 / 4)) (fin (7 / 4)) = fin 0 :=
      add_exact (by norm_num) Rep.zero.grid (by norm_num)
    have d4 : div (fin 0) (fin (1 / 65536)) = fin 0 := by
      rw [div, if_neg (by norm_num), zero_div, round_fin (by norm_num), rnd_zero]
    dsimp only [intersectionSegment2D, xIntersectionSegment2D, point]
    rw [e1, e2, e3, e4, e5, e6, e7, q1, q2, q3, q4, u1, u2, d1, d2, d3, d4, ht]
    have n1 : ¬ lt (abs (fin (3301395 / 1048576))) (fin τ) :=
      not_lt.2 (show τ ≤ |(3301395 / 1048576 : ℝ)| by rw [abs_of_pos (by norm_num)]; linarith)
    have n2 : ¬ (lt (fin (15153614 / 16777216)) (fin 0) ∨ lt (fin 1) (fin (15153614 / 16777216))) := by
      rintro (k | k)
      · exact absurd (show (15153614 / 16777216 : ℝ) < 0 from k) (by norm_num)
      · exact absurd (show (1 : ℝ) < 15153614 / 16777216 from k) (by norm_num)
    have n3 : ¬ lt (abs (fin (1 / 65536))) (fin τ) :=
      not_lt.2 (show τ ≤ |(1 / 65536 : ℝ)| by rw [abs_of_pos (by norm_num)]; linarith)
    have n4 : ¬ (lt (fin 0) (fin 0) ∨ lt (fin 1) (fin 0)) := by
      rintro (k | k)
      · exact absurd (show (0 : ℝ) < 0 from k) (by norm_num)
      · exact absurd (show (1 : ℝ) < 0 from k) (by norm_num)
    rw [if_neg n1, if_neg n2, if_neg (fun k => n3 k.1), if_neg n3, if_neg n4]
  · intro c
    have h := (AlMath.intersection_eq ⟨3 / 4, -3 / 4⟩ ⟨49153 / 65536, 7 / 8⟩ ⟨-1, 5 / 16⟩ ⟨15 / 16, -7 / 8⟩ c).2
    rw [← Bool.not_eq_true]
    intro k
    obtain ⟨-, -, z, hz1, hz2⟩ := h.1 k
    have := hfar z hz1 z hz2
    norm_num at this

/-- The hypotheses of the theorems on crossings: the diagonals of a square of 20 cm. -/
example : ClearCrossing ⟨-1 / 8, -1 / 8⟩ ⟨1 / 8, 1 / 8⟩ ⟨-1 / 8, 1 / 8⟩ ⟨1 / 8, -1 / 8⟩ (1 / 8) := by
  have hc : AlMath.Spec.crossDir ⟨-1 / 8, -1 / 8⟩ ⟨1 / 8, 1 / 8⟩ ⟨-1 / 8, 1 / 8⟩ ⟨1 / 8, -1 / 8⟩ = -1 / 8 := by
    norm_num [AlMath.Spec.crossDir]
  have ha : |(-1 / 8 : ℝ)| = 1 / 8 := by rw [abs_of_neg (by norm_num)]; norm_num
  refine ⟨?_, 1 / 2, 1 / 2, 1 / 1024, 1 / 4, by norm_num, by norm_num, by norm_num, by norm_num, by norm_num, by norm_num,
    ⟨by norm_num, .inl ?_⟩, ?_, ?_⟩
  · rw [hc, ha]
    norm_num
  · norm_num [abs_of_pos]
  · rw [hc, ha]
    norm_num
  · rw [hc, ha]
    norm_num

/-- A point in a foot of 10 cm is clearly on the right of all its sides. -/
example : ∀ u v, AlMath.Spec.IsSide [⟨-1 / 16, -1 / 16⟩, ⟨-1 / 16, 1 / 16⟩, ⟨1 / 16, 1 / 16⟩, ⟨1 / 16, -1 / 16⟩] u v →
    AlMath.Spec.side u v (AlMath.Position2D.pt ⟨1 / 64, -1 / 32⟩) ≤ -(2 ^ (-18 : ℤ) * (1 / 16) ^ 2) := by
  rintro u v ⟨i, hi, h1, h2⟩
  have : i = 0 ∨ i = 1 ∨ i = 2 ∨ i = 3 := by
    simp only [List.length_cons, List.length_nil] at hi
    omega
  rcases this with rfl | rfl | rfl | rfl <;> simp at h1 h2 <;> subst h1 <;> subst h2 <;>
    norm_num [AlMath.Spec.side, AlMath.Position2D.pt]

end AlMath.F32
