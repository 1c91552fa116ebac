import Verif.Model.AlMath
import Verif.Lemmas.Rot
import Verif.Props.C23
import Mathlib.LinearAlgebra.CrossProduct

/-!
C29: clipData. C30: inertia of a point mass. C31: axis masks.
-/

namespace AlMath

open Spec Matrix

theorem clipFloat_eq {mn mx : ℝ} (h : mn ≤ mx) (d : ℝ) :
    (clipFloat mn mx d).1 = max mn (min mx d) ∧
      ((clipFloat mn mx d).2 = true ↔ d < mn ∨ mx < d) := by
  unfold clipFloat
  dsimp only
  split_ifs with h1 h2
  · rw [min_eq_right (by linarith), max_eq_left h1.le]
    refine ⟨rfl, ?_⟩
    simp [h1, h1.ne]
  · rw [min_eq_left h2.le, max_eq_right h]
    refine ⟨rfl, ?_⟩
    simp [h2, h2.ne']
  · rw [not_lt] at h1 h2
    rw [min_eq_right h2, max_eq_right h1]
    refine ⟨rfl, ?_⟩
    simp [h1, h2]

/-- The value is replaced by the nearest one in the range (so it ends inside, and is
unchanged if it was inside), and the flag says whether it was outside. -/
theorem C29_scalar {mn mx : ℝ} (h : mn ≤ mx) (d : ℝ) :
    let r := clipFloat mn mx d
    mn ≤ r.1 ∧ r.1 ≤ mx ∧ (mn ≤ d → d ≤ mx → r.1 = d) ∧
    (∀ e, mn ≤ e → e ≤ mx → |d - r.1| ≤ |d - e|) ∧
    (r.2 = true ↔ r.1 ≠ d) ∧ (r.2 = true ↔ ¬ (mn ≤ d ∧ d ≤ mx)) := by
  intro r
  obtain ⟨h1, h2⟩ := clipFloat_eq h d
  have h1' : r.1 = max mn (min mx d) := h1
  have h2' : r.2 = true ↔ d < mn ∨ mx < d := h2
  clear_value r
  rcases lt_or_ge d mn with hd | hd
  · have e : r.1 = mn := by rw [h1', min_eq_right (by linarith), max_eq_left hd.le]
    rw [e, h2']
    refine ⟨le_refl _, h, fun _ _ => by linarith, ?_, by simp [hd, hd.ne'], by simp [hd]⟩
    intro e he _
    rw [abs_of_nonpos (by linarith), abs_of_nonpos (by linarith)]; linarith
  · rcases lt_or_ge mx d with hd2 | hd2
    · have e : r.1 = mx := by rw [h1', min_eq_left hd2.le, max_eq_right h]
      rw [e, h2']
      refine ⟨h, le_refl _, fun _ _ => by linarith, ?_, by simp [hd2, hd2.ne], by simp [hd2]⟩
      intro e _ he
      rw [abs_of_nonneg (by linarith), abs_of_nonneg (by linarith)]; linarith
    · have e : r.1 = d := by rw [h1', min_eq_right hd2, max_eq_right hd]
      rw [e, h2']
      refine ⟨hd, hd2, fun _ _ => rfl, ?_, by simp [hd, hd2], by simp [hd, hd2]⟩
      intro e _ _; rw [sub_self, abs_zero]; exact abs_nonneg _

example : (1 : ℝ) ≤ 2 := by norm_num

/-- A bound passed by reference: a separate variable, or an element of the vector. Not
in /repo: specification. -/
inductive Spec.IsBoundView : (List ℝ → ℝ) → Prop
  | other (m : ℝ) : IsBoundView fun _ => m
  | element (i : ℕ) (m : ℝ) : IsBoundView fun l => l.getD i m

theorem clipLoop_eq (mn mx : List ℝ → ℝ) (l : List ℝ) (h : mn l ≤ mx l)
    (hmn : IsBoundView mn) (hmx : IsBoundView mx) (n : ℕ) (hn : n ≤ l.length) :
    ((List.range n).foldl (clipVectorStep mn mx) (l, false)).1 =
        (l.take n).map (fun d => max (mn l) (min (mx l) d)) ++ l.drop n ∧
    (((List.range n).foldl (clipVectorStep mn mx) (l, false)).2 = true ↔
        ∃ d ∈ l.take n, d < mn l ∨ mx l < d) := by
  induction n with
  | zero => simp
  | succ n ih =>
    obtain ⟨ih1, ih2⟩ := ih (by omega)
    rw [List.range_succ, List.foldl_append, List.foldl_cons, List.foldl_nil]
    set st := (List.range n).foldl (clipVectorStep mn mx) (l, false)
    have hget : ∀ j, st.1[j]? = (l[j]?).map fun d =>
        if j < n then max (mn l) (min (mx l) d) else d := by
      intro j
      rw [ih1]
      by_cases hj : j < n
      · rw [List.getElem?_append_left (by simp; omega)]
        simp [hj]
      · rw [List.getElem?_append_right (by simp; omega)]
        simp [hj]
        rw [Nat.min_eq_left (by omega)]
        have : n + (j - n) = j := by omega
        rw [this]
    -- neither bound has moved
    have hview : ∀ v, IsBoundView v → mn l ≤ v l → v l ≤ mx l → v st.1 = v l := by
      intro v hv h1 h2
      cases hv with
      | other m => rfl
      | element i m =>
        simp only [List.getD] at h1 h2 ⊢
        rw [hget]
        cases hi : l[i]? with
        | none => rfl
        | some d =>
          rw [hi] at h1 h2
          simp only [Option.getD_some, Option.map_some] at h1 h2 ⊢
          split_ifs
          · rw [min_eq_right h2, max_eq_right h1]
          · rfl
    have e1 := hview mn hmn le_rfl h
    have e2 := hview mx hmx h le_rfl
    have hln : n < l.length := by omega
    have hd : st.1[n]? = some l[n] := by
      rw [hget]; simp [hln]
    obtain ⟨c1, c2⟩ := clipFloat_eq h l[n]
    have htake : l.take (n + 1) = l.take n ++ [l[n]] := by
      rw [List.take_succ]; simp [hln]
    constructor
    · unfold clipVectorStep
      rw [hd]
      simp only [e1, e2, c1]
      rw [htake, ih1]
      have hlen : ((l.take n).map fun d => max (mn l) (min (mx l) d)).length = n := by
        simp; omega
      rw [List.drop_eq_getElem_cons hln, List.set_append_right _ _ (by omega)]
      rw [hlen, Nat.sub_self, List.set_cons_zero, List.map_append, List.append_assoc]
      simp only [List.map_cons, List.map_nil, List.cons_append, List.nil_append]
    · unfold clipVectorStep
      rw [hd]
      simp only [e1, e2]
      rw [htake]
      by_cases hc : (clipFloat (mn l) (mx l) l[n]).2 = true
      · rw [if_pos hc]
        refine ⟨fun _ => ⟨l[n], List.mem_append.2 (Or.inr (List.mem_singleton.2 rfl)), c2.1 hc⟩, fun _ => rfl⟩
      · rw [if_neg hc, ih2]
        constructor
        · rintro ⟨d, hd, h'⟩; exact ⟨d, List.mem_append.2 (Or.inl hd), h'⟩
        · rintro ⟨d, hd, h'⟩
          rcases List.mem_append.1 hd with hd | hd
          · exact ⟨d, hd, h'⟩
          · simp at hd; subst hd
            exact absurd (c2.2 h') hc

/-- Every element of the vector is clipped, and the flag is set exactly if some
element was outside the range; this also holds when the bounds are elements of the
vector itself. -/
theorem C29_vector (mn mx : List ℝ → ℝ) (l : List ℝ) (h : mn l ≤ mx l)
    (hmn : IsBoundView mn) (hmx : IsBoundView mx) :
    let r := clipVectorView mn mx l
    r.1 = l.map (fun d => max (mn l) (min (mx l) d)) ∧
    (r.2 = true ↔ ∃ d ∈ l, d < mn l ∨ mx l < d) := by
  have := clipLoop_eq mn mx l h hmn hmx l.length le_rfl
  simpa [clipVectorView] using this

example : (fun l : List ℝ => l.getD 0 0) [1, 5, 3] ≤ (fun _ : List ℝ => (4 : ℝ)) [1, 5, 3] ∧
    IsBoundView (fun l : List ℝ => l.getD 0 0) := by
  refine ⟨by norm_num, .element 0 0⟩

theorem clipVector_eq {mn mx : ℝ} (h : mn ≤ mx) (l : List ℝ) :
    (clipVector mn mx l).1 = l.map (fun d => max mn (min mx d)) ∧
    ((clipVector mn mx l).2 = true ↔ ∃ d ∈ l, d < mn ∨ mx < d) :=
  C29_vector _ _ l h (.other mn) (.other mx)

/-- Second call: nothing changes and the flag is false. -/
theorem C29_idempotent {mn mx : ℝ} (h : mn ≤ mx) (l : List ℝ) :
    clipVector mn mx (clipVector mn mx l).1 = ((clipVector mn mx l).1, false) := by
  obtain ⟨h1, h2⟩ := clipVector_eq h l
  obtain ⟨h3, h4⟩ := clipVector_eq h (clipVector mn mx l).1
  have hin : ∀ d ∈ (clipVector mn mx l).1, mn ≤ d ∧ d ≤ mx := by
    intro d hd
    rw [h1, List.mem_map] at hd
    obtain ⟨e, -, rfl⟩ := hd
    exact ⟨le_max_left _ _, max_le h (min_le_left _ _)⟩
  ext1
  · rw [h3]
    conv_rhs => rw [← List.map_id (clipVector mn mx l).1]
    apply List.map_congr_left
    intro d hd
    rw [min_eq_right (hin d hd).2, max_eq_right (hin d hd).1, id]
  · have : ¬ (clipVector mn mx (clipVector mn mx l).1).2 = true := by
      rw [h4]
      rintro ⟨d, hd, hc⟩
      have := hin d hd
      rcases hc with hc | hc <;> linarith
    simpa using this

/-- Every element of every row is clipped, and the flag is set exactly if some element
of some row was outside the range. -/
theorem C29_matrix {mn mx : ℝ} (h : mn ≤ mx) (l : List (List ℝ)) :
    (clipMatrix mn mx l).1 = l.map (fun row => row.map fun d => max mn (min mx d)) ∧
    ((clipMatrix mn mx l).2 = true ↔ ∃ row ∈ l, ∃ d ∈ row, d < mn ∨ mx < d) := by
  have key : ∀ n, n ≤ l.length →
      ((List.range n).foldl (clipMatrixStep mn mx) (l, false)).1 =
        (l.take n).map (fun row => row.map fun d => max mn (min mx d)) ++ l.drop n ∧
      (((List.range n).foldl (clipMatrixStep mn mx) (l, false)).2 = true ↔
        ∃ row ∈ l.take n, ∃ d ∈ row, d < mn ∨ mx < d) := by
    intro n
    induction n with
    | zero => simp
    | succ n ih =>
      intro hn
      obtain ⟨ih1, ih2⟩ := ih (by omega)
      rw [List.range_succ, List.foldl_append, List.foldl_cons, List.foldl_nil]
      set st := (List.range n).foldl (clipMatrixStep mn mx) (l, false)
      have hln : n < l.length := by omega
      have hlen : ((l.take n).map fun row => row.map fun d => max mn (min mx d)).length = n := by
        simp; omega
      have hd : st.1[n]? = some l[n] := by
        rw [ih1, List.getElem?_append_right (by omega), hlen]; simp [hln]
      have htake : l.take (n + 1) = l.take n ++ [l[n]] := by
        rw [List.take_succ]; simp [hln]
      obtain ⟨c1, c2⟩ := clipVector_eq h l[n]
      unfold clipMatrixStep
      rw [hd]
      simp only [c1]
      rw [htake]
      constructor
      · rw [ih1, List.drop_eq_getElem_cons hln, List.set_append_right _ _ (by omega)]
        rw [hlen, Nat.sub_self, List.set_cons_zero, List.map_append, List.append_assoc]
        simp only [List.map_cons, List.map_nil, List.cons_append, List.nil_append]
      · by_cases hc : (clipVector mn mx l[n]).2 = true
        · rw [if_pos hc]
          refine ⟨fun _ => ⟨l[n], List.mem_append.2 (Or.inr (List.mem_singleton.2 rfl)), c2.1 hc⟩, fun _ => rfl⟩
        · rw [if_neg hc, ih2]
          constructor
          · rintro ⟨d, hd, h'⟩; exact ⟨d, List.mem_append.2 (Or.inl hd), h'⟩
          · rintro ⟨d, hd, h'⟩
            rcases List.mem_append.1 hd with hd | hd
            · exact ⟨d, hd, h'⟩
            · simp at hd; subst hd
              exact absurd (c2.2 h') hc
  have := key l.length le_rfl
  simpa [clipMatrix] using this

/-! ### C30 -/

namespace Spec

/-- A list of nine elements read as a matrix, row by row. Not in /repo: specification. -/
def matOfList (l : List ℝ) : Mat3 := Matrix.of fun i j => l.getD (3 * i.val + j.val) 0

end Spec

/-- Nine elements are returned, forming the matrix of the quadratic form
`v ↦ m |p × v|²`: symmetric; positive semidefinite for a nonnegative mass. -/
theorem C30_form (m : ℝ) (p : Position3D) :
    (pointMassRotationalInertia m p).length = 9 ∧
    (matOfList (pointMassRotationalInertia m p))ᵀ = matOfList (pointMassRotationalInertia m p) ∧
    (∀ v : Vec3, v ⬝ᵥ (matOfList (pointMassRotationalInertia m p) *ᵥ v) =
      m * lenSq (crossProduct p.vec v)) ∧
    (0 ≤ m → ∀ v : Vec3, 0 ≤ v ⬝ᵥ (matOfList (pointMassRotationalInertia m p) *ᵥ v)) := by
  have hq : ∀ v : Vec3, v ⬝ᵥ (matOfList (pointMassRotationalInertia m p) *ᵥ v) =
      m * lenSq (crossProduct p.vec v) := by
    intro v
    simp [matOfList, pointMassRotationalInertia, Matrix.mulVec, dotProduct, Fin.sum_univ_three,
      lenSq, Position3D.vec, crossProduct]
    ring
  refine ⟨rfl, ?_, hq, ?_⟩
  · ext i j
    fin_cases i <;> fin_cases j <;> simp [matOfList, pointMassRotationalInertia]
  · intro hm v
    rw [hq]
    refine mul_nonneg hm ?_
    unfold lenSq
    exact Finset.sum_nonneg fun i _ => mul_self_nonneg _

/-- The position is in the kernel; for a nonzero mass and position, the kernel consists
of the multiples of the position. -/
theorem C30_kernel (m : ℝ) (p : Position3D) :
    matOfList (pointMassRotationalInertia m p) *ᵥ p.vec = 0 ∧
    (m ≠ 0 → p.vec ≠ 0 → ∀ v : Vec3,
      matOfList (pointMassRotationalInertia m p) *ᵥ v = 0 → ∃ k : ℝ, v = k • p.vec) := by
  constructor
  · ext i
    fin_cases i <;> simp [matOfList, pointMassRotationalInertia, Matrix.mulVec, dotProduct,
      Fin.sum_univ_three, Position3D.vec] <;> ring
  · intro hm hp v hv
    have hq := (C30_form m p).2.2.1 v
    rw [hv, dotProduct_zero] at hq
    have hc : lenSq (crossProduct p.vec v) = 0 := (mul_eq_zero.1 hq.symm).resolve_left hm
    have hl : p.x * p.x + p.y * p.y + p.z * p.z ≠ 0 := by
      intro h0
      apply hp
      have hx := mul_self_nonneg p.x
      have hy := mul_self_nonneg p.y
      have hz := mul_self_nonneg p.z
      ext i
      fin_cases i <;> simp [Position3D.vec] <;> apply mul_self_eq_zero.1 <;> linarith
    simp [lenSq, dotProduct, Fin.sum_univ_three, Position3D.vec, crossProduct] at hc
    have a0 := mul_self_nonneg (p.y * v 2 - p.z * v 1)
    have a1 := mul_self_nonneg (p.z * v 0 - p.x * v 2)
    have a2 := mul_self_nonneg (p.x * v 1 - p.y * v 0)
    have b0 : p.y * v 2 - p.z * v 1 = 0 := by apply mul_self_eq_zero.1; linarith
    have b1 : p.z * v 0 - p.x * v 2 = 0 := by apply mul_self_eq_zero.1; linarith
    have b2 : p.x * v 1 - p.y * v 0 = 0 := by apply mul_self_eq_zero.1; linarith
    refine ⟨(p.x * v 0 + p.y * v 1 + p.z * v 2) / (p.x * p.x + p.y * p.y + p.z * p.z), ?_⟩
    ext i
    fin_cases i <;> simp [Position3D.vec] <;>
      rw [div_mul_eq_mul_div, eq_div_iff hl]
    · linear_combination p.z * b1 - p.y * b2
    · linear_combination p.x * b2 - p.z * b0
    · linear_combination p.y * b0 - p.x * b1

example : (5 : ℝ) ≠ 0 ∧ (⟨1, 2, 3⟩ : Position3D).vec ≠ 0 := by
  refine ⟨by norm_num, fun h => ?_⟩
  have := congrFun h 0
  simp [Position3D.vec] at this

/-- Rotating the position conjugates the inertia. -/
theorem C30_rotate (m : ℝ) (p : Position3D) (r : Rotation) (hr : IsRot r.mat) :
    matOfList (pointMassRotationalInertia m (r.act p)) =
      r.mat * matOfList (pointMassRotationalInertia m p) * r.matᵀ := by
  have hR : r.mat * r.matᵀ = 1 := mul_eq_one_comm.1 hr.1
  have hform : ∀ q : Position3D, matOfList (pointMassRotationalInertia m q) =
      m • (lenSq q.vec • (1 : Mat3) - Matrix.vecMulVec q.vec q.vec) := by
    intro q
    ext i j
    fin_cases i <;> fin_cases j <;> simp [matOfList, pointMassRotationalInertia, lenSq, dotProduct,
      Fin.sum_univ_three, Position3D.vec, Matrix.vecMulVec_apply] <;> ring_nf <;> simp
  have hv : (r.act p).vec = r.mat *ᵥ p.vec := by
    ext i
    fin_cases i <;> simp [Rotation.act, Position3D.vec, Rotation.mat, Matrix.mulVec, dotProduct,
      Fin.sum_univ_three]
  have hl : lenSq (r.mat *ᵥ p.vec) = lenSq p.vec := by
    unfold lenSq
    rw [Matrix.dotProduct_mulVec, Matrix.vecMul_mulVec, ← Matrix.mulVec_transpose,
      Matrix.transpose_mul, Matrix.transpose_transpose, hr.1, Matrix.one_mulVec]
  rw [hform, hform, hv, hl, Matrix.mul_smul, Matrix.smul_mul, Matrix.mul_sub, Matrix.sub_mul,
    Matrix.mul_smul, Matrix.smul_mul, Matrix.mul_one, hR, Matrix.mul_vecMulVec,
    Matrix.vecMulVec_mul, Matrix.vecMul_transpose]

example : IsRot (Rotation.mat ⟨0, -1, 0, 1, 0, 0, 0, 0, 1⟩) := exampleRigid

/-! ### C31 -/

/-- Valid masks are exactly the sums of a nonempty set of the six axis bits. -/
theorem C31_axisMask (m : ℤ) :
    isAxisMask m ↔ ∃ s : Finset (Fin 6), s.Nonempty ∧ m = ∑ i ∈ s, (2 : ℤ) ^ i.val := by
  unfold isAxisMask
  constructor
  · rintro ⟨h1, h2⟩
    have key : ∀ k : Fin 64, ((k.val : ℤ) = ∑ i ∈ Finset.univ.filter
        (fun i : Fin 6 => k.val.testBit i.val = true), (2 : ℤ) ^ i.val) := by decide
    have hk := key ⟨m.toNat, by omega⟩
    have hm : ((m.toNat : ℕ) : ℤ) = m := Int.toNat_of_nonneg (by omega)
    simp only [hm] at hk
    refine ⟨_, ?_, hk⟩
    rw [Finset.nonempty_iff_ne_empty]
    intro he
    rw [he, Finset.sum_empty] at hk
    omega
  · rintro ⟨s, ⟨i, hi⟩, rfl⟩
    have h1 : ∑ i ∈ s, (2 : ℤ) ^ i.val ≤ ∑ i : Fin 6, (2 : ℤ) ^ i.val :=
      Finset.sum_le_sum_of_subset_of_nonneg (Finset.subset_univ s) fun _ _ _ => by positivity
    have h2 : (2 : ℤ) ^ i.val ≤ ∑ i ∈ s, (2 : ℤ) ^ i.val :=
      Finset.single_le_sum (f := fun i : Fin 6 => (2 : ℤ) ^ i.val) (fun _ _ => by positivity) hi
    have h3 : (1 : ℤ) ≤ 2 ^ i.val := one_le_pow₀ (by norm_num)
    have h4 : ∑ i : Fin 6, (2 : ℤ) ^ i.val = 63 := by decide
    constructor <;> linarith

end AlMath
