import Verif.Model.AlMath
import Verif.Props.C24

/-!
C26: pill parameters.
-/

namespace AlMath

open Spec Matrix

theorem distance3_eq (a b : Position3D) :
    Position3D.distance a b = √(lenSq (b.vec - a.vec)) := by
  unfold Position3D.distance Position3D.distanceSquared lenSq
  congr 1
  simp [Position3D.vec, dotProduct, Fin.sum_univ_three]
  ring

/-- For distinct points the computed pill has half the distance as half extent, its
frame is centred at the midpoint with its third axis the unit vector from `a` to `b`,
and the sphere centres of that pill are `b` (the upper one) and `a` (the lower one);
for equal points the call throws. -/
theorem C26_pill (a b : Position3D) :
    (a = b → computePillParameters a b = .throws) ∧
    (a ≠ b → ∃ h t, computePillParameters a b = .ok (h, t) ∧ 0 < h ∧
      (2 * h) ^ 2 = lenSq (b.vec - a.vec) ∧
      t.trans = (1 / 2 : ℝ) • (a.vec + b.vec) ∧
      (2 * h) • t.rotMat.col 2 = b.vec - a.vec ∧ lenSq (t.rotMat.col 2) = 1 ∧
      getSphereCentersFromPill h t = (b, a)) := by
  have key := C25_orthogonalSpace_partial (Position3D.smul (Position3D.sub b a) 0.5)
    (transformFromPosition3D (Position3D.add a (Position3D.smul (Position3D.sub b a) 0.5)))
  have hv : (Position3D.smul (Position3D.sub b a) 0.5).vec = (1 / 2 : ℝ) • (b.vec - a.vec) := by
    ext i
    fin_cases i <;> simp [Position3D.vec, Position3D.smul, Position3D.sub] <;> ring
  constructor
  · rintro rfl
    unfold computePillParameters
    dsimp only
    rw [key.1 (by rw [hv, sub_self, smul_zero])]
    rfl
  · intro hab
    have hne : b.vec - a.vec ≠ 0 := by
      intro h0
      apply hab
      have h0 := sub_eq_zero.1 h0
      ext
      · exact (congrFun h0 0).symm
      · exact (congrFun h0 1).symm
      · exact (congrFun h0 2).symm
    obtain ⟨t, n, ht, htr, ⟨hn1, r, hr, hrn⟩, hcol, -⟩ := key.2 (by
      rw [hv]; intro h; exact hne ((smul_eq_zero.1 h).resolve_left (by norm_num)))
    rw [hv] at hrn
    have hr2 : b.vec - a.vec = (2 * r) • n := by
      rw [mul_smul, ← hrn, smul_smul]; norm_num
    have hlen : lenSq (b.vec - a.vec) = (2 * r) ^ 2 := by
      rw [hr2]; unfold lenSq at *
      rw [smul_dotProduct, dotProduct_smul, hn1]; simp; ring
    have hdist : 0.5 * Position3D.distance a b = r := by
      rw [distance3_eq, hlen, Real.sqrt_sq (by linarith)]; ring
    have htr' : t.trans = (1 / 2 : ℝ) • (a.vec + b.vec) := by
      rw [htr]
      ext i
      fin_cases i <;> simp [transformFromPosition3D, Transform.trans, Position3D.vec,
        Position3D.smul, Position3D.sub, Position3D.add] <;> ring
    refine ⟨r, t, ?_, hr, hlen.symm, htr', ?_, ?_, ?_⟩
    · unfold computePillParameters
      dsimp only
      rw [ht, Res.map_ok, hdist]
    · rw [hcol, hr2]
    · rw [hcol]; exact hn1
    · have e0 := congrFun hr2 0
      have e1 := congrFun hr2 1
      have e2 := congrFun hr2 2
      rw [← hcol] at e0 e1 e2
      have f0 := congrFun htr' 0
      have f1 := congrFun htr' 1
      have f2 := congrFun htr' 2
      simp [Transform.rotMat, Transform.trans, Position3D.vec] at e0 e1 e2 f0 f1 f2
      unfold getSphereCentersFromPill Transform.act
      ext <;> simp only [] <;> linarith

/-- So the two output arguments of the second call receive the two input points of the
first in the opposite order. -/
theorem C26_order (a b : Position3D) (hab : a ≠ b) :
    ∃ h t, computePillParameters a b = .ok (h, t) ∧ getSphereCentersFromPill h t ≠ (a, b) := by
  obtain ⟨h, t, h1, -, -, -, -, -, h2⟩ := (C26_pill a b).2 hab
  refine ⟨h, t, h1, ?_⟩
  rw [h2]
  intro he
  exact hab (Prod.ext_iff.1 he).2

example : (⟨0, 0, 0⟩ : Position3D) ≠ ⟨0, 3, 4⟩ := by
  intro h
  have := congrArg Position3D.y h
  norm_num at this

/-- Going the other way: from a pill of positive half extent in a rigid frame, the
parameters computed from its two sphere centres give back the half extent and the
centre, with the third axis reversed. -/
theorem C26_back (h : ℝ) (t : Transform) (hh : 0 < h) (ht : IsRigid t) :
    ∃ t', computePillParameters (getSphereCentersFromPill h t).1
        (getSphereCentersFromPill h t).2 = .ok (h, t') ∧
      t'.trans = t.trans ∧ t'.rotMat.col 2 = -t.rotMat.col 2 := by
  have hc : lenSq (t.rotMat.col 2) = 1 := by
    have := congrFun (congrFun ht.1 2) 2
    simpa [Matrix.mul_apply, lenSq, dotProduct] using this
  have hdiff : (getSphereCentersFromPill h t).2.vec - (getSphereCentersFromPill h t).1.vec
      = (-(2 * h)) • t.rotMat.col 2 := by
    ext i
    fin_cases i <;> simp [getSphereCentersFromPill, Transform.act, Position3D.vec,
      Transform.rotMat] <;> ring
  have hne : (getSphereCentersFromPill h t).1 ≠ (getSphereCentersFromPill h t).2 := by
    intro he
    rw [he, sub_self] at hdiff
    rcases smul_eq_zero.1 hdiff.symm with h0 | h0
    · linarith
    · rw [h0] at hc; simp [lenSq] at hc
  obtain ⟨h', t', h1, h2, h3, h4, h5, h6, -⟩ := (C26_pill _ _).2 hne
  have hl : lenSq ((-(2 * h)) • t.rotMat.col 2) = (2 * h) ^ 2 := by
    unfold lenSq at *
    rw [smul_dotProduct, dotProduct_smul, hc]; simp; ring
  rw [hdiff, hl] at h3
  have hhh : h' = h := by
    have := (sq_eq_sq₀ (by linarith) (by linarith)).1 h3
    linarith
  subst hhh
  refine ⟨t', h1, ?_, ?_⟩
  · rw [h4]
    ext i
    fin_cases i <;> simp [getSphereCentersFromPill, Transform.act, Position3D.vec,
      Transform.trans] <;> ring
  · rw [hdiff] at h5
    have : (2 * h') • (t'.rotMat.col 2) = (2 * h') • (-t.rotMat.col 2) := by
      rw [h5, neg_smul, smul_neg]
    exact smul_right_injective _ (by linarith : (2 * h') ≠ 0) this

example : IsRigid ⟨0, -1, 0, 3, 1, 0, 0, -2, 0, 0, 1, 5⟩ := exampleRigid

end AlMath
