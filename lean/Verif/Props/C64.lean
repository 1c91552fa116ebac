import Verif.Props.C58
import Verif.Props.C09
import Mathlib.LinearAlgebra.Matrix.Trace

/-!
C64: averages of transforms under changes of frame and of order.
-/

namespace AlMath

open Average Spec Matrix
open scoped Quaternion

theorem neg_one_smul' (q : ℍ[ℝ]) : (-1 : ℝ) • q = -q := by
  ext <;> simp

theorem quat_mul_smul (p q : ℍ[ℝ]) (c : ℝ) : p * c • q = c • (p * q) := by
  ext <;> simp <;> ring

theorem quatRotate_mul (p q : ℍ[ℝ]) (v : Vec3) :
    quatRotate (p * q) v = quatRotate p (quatRotate q v) := by
  have h0 : (q * quat 0 (v 0) (v 1) (v 2) * star q).re = 0 := by
    simp; ring
  have h1 : quat 0 (quatRotate q v 0) (quatRotate q v 1) (quatRotate q v 2) =
      q * quat 0 (v 0) (v 1) (v 2) * star q := by
    ext
    · exact h0.symm
    · rfl
    · rfl
    · rfl
  unfold quatRotate at h1 ⊢
  simp only at h1 ⊢
  rw [h1]
  have h2 : p * q * quat 0 (v 0) (v 1) (v 2) * star (p * q) =
      p * (q * quat 0 (v 0) (v 1) (v 2) * star q) * star p := by
    rw [StarMul.star_mul]
    simp only [mul_assoc]
  rw [h2]

theorem Represents.mul {p q : ℍ[ℝ]} {R S : Mat3} (hp : Represents p R) (hq : Represents q S) :
    Represents (p * q) (R * S) := by
  refine ⟨by rw [map_mul, hp.1, hq.1, one_mul], fun v => ?_⟩
  rw [quatRotate_mul, hq.2, hp.2, Matrix.mulVec_mulVec]

theorem quatDot_mul_left (p q r : ℍ[ℝ]) :
    quatDot (p * q) (p * r) = Quaternion.normSq p * quatDot q r := by
  rw [quatDot_eq, quatDot_eq, Quaternion.normSq_def']
  simp
  ring

/-- Two rotations whose quaternions are orthogonal are a half turn apart. -/
theorem quatDot_sq {p q : ℍ[ℝ]} {R S : Mat3} (hp : Represents p R) (hq : Represents q S) :
    4 * (quatDot p q) ^ 2 = 1 + (Rᵀ * S).trace := by
  have ep : p = quat p.re p.imI p.imJ p.imK := rfl
  have eq : q = quat q.re q.imI q.imJ q.imK := rfl
  rw [quatDot_eq]
  rw [ep, represents_iff] at hp
  rw [eq, represents_iff] at hq
  obtain ⟨np, rfl⟩ := hp
  obtain ⟨nq, rfl⟩ := hq
  simp [Matrix.trace_fin_three, Matrix.mul_apply, Fin.sum_univ_three]
  generalize p.re = a at *
  generalize p.imI = b at *
  generalize p.imJ = c at *
  generalize p.imK = d at *
  generalize q.re = a' at *
  generalize q.imI = b' at *
  generalize q.imJ = c' at *
  generalize q.imK = d' at *
  have e1 : 1 - 2 * (c ^ 2 + d ^ 2) = a * a + b * b - c * c - d * d := by linarith
  have e2 : 1 - 2 * (b ^ 2 + d ^ 2) = a * a - b * b + c * c - d * d := by linarith
  have e3 : 1 - 2 * (b ^ 2 + c ^ 2) = a * a - b * b - c * c + d * d := by linarith
  have f1 : 1 - 2 * (c' ^ 2 + d' ^ 2) = a' * a' + b' * b' - c' * c' - d' * d' := by linarith
  have f2 : 1 - 2 * (b' ^ 2 + d' ^ 2) = a' * a' - b' * b' + c' * c' - d' * d' := by linarith
  have f3 : 1 - 2 * (b' ^ 2 + c' ^ 2) = a' * a' - b' * b' - c' * c' + d' * d' := by linarith
  rw [e1, e2, e3, f1, f2, f3]
  linear_combination (a' * a' + b' * b' + c' * c' + d' * d') * np + nq

/-- The rotation of the average is that of the normalised sum of any quaternions of the rotations
that are strictly on the side of the first one. -/
theorem average_strict (t : Transform) (ts : List Transform) (ht : ∀ u ∈ t :: ts, IsRigid u)
    (q : ℍ[ℝ]) (qs : List ℍ[ℝ])
    (hq : List.Forall₂ (fun u p => Represents p u.rotMat) (t :: ts) (q :: qs))
    (hd : ∀ p ∈ qs, 0 < quatDot p q) :
    ∃ (r : Transform) (c : ℝ), averageTransforms (t :: ts) = .ok r ∧
      r.trans = ((t :: ts).length : ℝ)⁻¹ • ((t :: ts).map Transform.trans).sum ∧ 0 < c ∧
      Represents (c • (q :: qs).sum) r.rotMat := by
  obtain ⟨r, e, -, htr, q0, qs0, c, h1, h2, h3, h4⟩ := C58_average t ts ht
  refine ⟨r, c, e, htr, h3, ?_⟩
  cases hq with
  | cons hq hqs =>
    cases h1 with
    | cons hq0 hqs0 =>
      have key : ∀ (s : ℝ), (s = 1 ∨ s = -1) → q0 = s • q → qs0 = qs.map fun p => s • p := by
        intro s hs hs0
        clear h4 e htr ht hq hq0
        induction ts generalizing qs qs0 with
        | nil => cases hqs; cases hqs0; rfl
        | cons u ts ih =>
          cases hqs with
          | @cons _ p _ qs' g1 g2 =>
            cases hqs0 with
            | @cons _ p0 _ qs0' g3 g4 =>
              rw [List.map_cons, ih qs' (fun p hp => hd p (by simp [hp])) qs0'
                (fun p hp => h2 p (by simp [hp])) g2 g4]
              congr 1
              have hp := hd p (by simp)
              have hp0 := h2 p0 (by simp)
              rw [hs0] at hp0
              rcases Represents.unique g3 g1 with e | e <;> rcases hs with rfl | rfl
              · simp [e]
              · exfalso
                rw [e, neg_one_smul', quatDot_comm, quatDot_neg, quatDot_comm] at hp0
                linarith
              · exfalso
                rw [e, one_smul, quatDot_neg] at hp0
                linarith
              · rw [e, neg_one_smul']
      rcases Represents.unique hq0 hq with e0 | e0
      · have := key 1 (.inl rfl) (by rw [one_smul, e0])
        rw [e0, this] at h4
        simpa using h4
      · have := key (-1) (.inr rfl) (by rw [neg_one_smul', e0])
        have hs : (q0 :: qs0).sum = -(q :: qs).sum := by
          rw [this, e0, List.sum_cons, List.sum_cons, neg_add]
          congr 1
          clear this hqs0 hqs hd key
          induction qs with
          | nil => simp
          | cons a l ih =>
            rw [List.map_cons, List.sum_cons, List.sum_cons, ih, neg_add, neg_one_smul']
        rw [hs, smul_neg] at h4
        simpa using Represents.neg h4

theorem Transform.trans_mul (g u : Transform) :
    (g.mul u).trans = g.rotMat *ᵥ u.trans + g.trans := by
  have h := (C09_mul_mat g u).1
  have h0 := congrFun (congrFun h 0) 3
  have h1 := congrFun (congrFun h 1) 3
  have h2 := congrFun (congrFun h 2) 3
  simp [Transform.mat, Matrix.mul_apply, Fin.sum_univ_four] at h0 h1 h2
  funext l
  fin_cases l <;>
    simp [Transform.trans, Transform.rotMat, Matrix.mulVec, dotProduct, Fin.sum_univ_three, h0, h1,
      h2] <;> ring

theorem Transform.ext_parts {a b : Transform} (h1 : a.rotMat = b.rotMat) (h2 : a.trans = b.trans) :
    a = b := by
  have k := fun i j => congrFun (congrFun h1 i) j
  have k00 := k 0 0; have k01 := k 0 1; have k02 := k 0 2
  have k10 := k 1 0; have k11 := k 1 1; have k12 := k 1 2
  have k20 := k 2 0; have k21 := k 2 1; have k22 := k 2 2
  have l0 := congrFun h2 0; have l1 := congrFun h2 1; have l2 := congrFun h2 2
  simp [Transform.rotMat, Transform.trans] at k00 k01 k02 k10 k11 k12 k20 k21 k22 l0 l1 l2
  ext <;> assumption

theorem sum_trans_mul (g : Transform) (l : List Transform) :
    ((l.map g.mul).map Transform.trans).sum =
      g.rotMat *ᵥ (l.map Transform.trans).sum + (l.length : ℝ) • g.trans := by
  induction l with
  | nil => simp
  | cons a l ih =>
    simp only [List.map_cons, List.sum_cons, ih, Transform.trans_mul, Matrix.mulVec_add,
      List.length_cons, Nat.cast_add, Nat.cast_one, add_smul, one_smul]
    abel

theorem sum_quat_mul (g : ℍ[ℝ]) (l : List ℍ[ℝ]) : (l.map fun q => g * q).sum = g * l.sum := by
  induction l with
  | nil => simp
  | cons a l ih => rw [List.map_cons, List.sum_cons, List.sum_cons, ih, mul_add]

/-- When no rotation is a half turn away from the first one, moving all transforms by a rigid motion
moves their average by this motion. -/
theorem C64_frame (g t : Transform) (ts : List Transform) (hg : IsRigid g)
    (ht : ∀ u ∈ t :: ts, IsRigid u) (hh : ∀ u ∈ ts, (u.rotMatᵀ * t.rotMat).trace ≠ -1) :
    averageTransforms ((t :: ts).map g.mul) = (averageTransforms (t :: ts)).map g.mul := by
  obtain ⟨gq, -, hgq⟩ := toEigenQuaternion_spec g hg
  generalize toQuat gq = p at hgq
  obtain ⟨-, -, -, -, q, qs, -, h1, h2, -, -⟩ := C58_average t ts ht
  cases h1 with
  | cons hq hqs =>
    have hd : ∀ r ∈ qs, 0 < quatDot r q := by
      intro r hr
      obtain ⟨u, hu, hur⟩ : ∃ u ∈ ts, Represents r u.rotMat := by
        clear h2 hh ht
        induction hqs with
        | nil => simp at hr
        | cons a b ih =>
          rcases List.mem_cons.1 hr with rfl | hr
          · exact ⟨_, by simp, a⟩
          · obtain ⟨u, hu, h⟩ := ih hr
            exact ⟨u, by simp [hu], h⟩
      have hsq := quatDot_sq hur hq
      have hne := hh u hu
      rcases (h2 r hr).lt_or_eq with h | h
      · exact h
      · exfalso
        rw [← h] at hsq
        apply hne
        linarith
    obtain ⟨r, c, e, htr, hc, hr⟩ := average_strict t ts ht q qs (.cons hq hqs) hd
    have hqs' : List.Forall₂ (fun u p => Represents p u.rotMat) (ts.map g.mul)
        (qs.map fun q => p * q) := by
      clear hd h2 hh ht hr htr e
      induction hqs with
      | nil => exact .nil
      | cons a b ih =>
        exact .cons (by rw [Transform.rotMat_mul]; exact Represents.mul hgq a) ih
    obtain ⟨r', c', e', htr', hc', hr'⟩ := average_strict (g.mul t) (ts.map g.mul)
      (by
        intro u hu
        rw [← List.map_cons] at hu
        obtain ⟨v, hv, rfl⟩ := List.mem_map.1 hu
        unfold IsRigid
        rw [Transform.rotMat_mul]
        exact IsRot.mul hg (ht v hv))
      (p * q) (qs.map fun q => p * q)
      (.cons (by rw [Transform.rotMat_mul]; exact Represents.mul hgq hq) hqs')
      (by
        intro r hr
        obtain ⟨s, hs, rfl⟩ := List.mem_map.1 hr
        rw [quatDot_mul_left, hgq.1, one_mul]
        exact hd s hs)
    rw [List.map_cons, e', e, Res.map_ok]
    congr 1
    apply Transform.ext_parts
    · rw [Transform.rotMat_mul]
      have hS : (p * q :: qs.map fun q => p * q).sum = p * (q :: qs).sum := by
        rw [← List.map_cons (f := fun q => p * q), sum_quat_mul]
      rw [hS] at hr'
      have hcc : c' = c := by
        have n1 := hr.1
        have n2 := hr'.1
        rw [Quaternion.normSq_smul] at n1 n2
        rw [map_mul, hgq.1, one_mul] at n2
        have hpos : 0 < Quaternion.normSq (q :: qs).sum := by
          rcases (Quaternion.normSq_nonneg (a := (q :: qs).sum)).lt_or_eq with h | h
          · exact h
          · rw [← h] at n1; simp at n1
        have : c' ^ 2 = c ^ 2 := by
          apply mul_right_cancel₀ hpos.ne'
          rw [n1, n2]
        nlinarith
      have := Represents.mul hgq hr
      rw [quat_mul_smul, ← hcc] at this
      exact Represents.mat_unique hr' this
    · rw [htr', Transform.trans_mul, htr, ← List.map_cons, sum_trans_mul, smul_add, smul_smul,
        Matrix.mulVec_smul]
      simp only [List.length_cons, List.length_map]
      congr 1
      rw [inv_mul_cancel₀ (by positivity), one_smul]

/-- A quarter turn, and transforms that are not a half turn apart. -/
example : IsRigid ⟨0, -1, 0, 5, 1, 0, 0, 6, 0, 0, 1, 7⟩ ∧
    (∀ u ∈ [Transform.one, ⟨0, -1, 0, 5, 1, 0, 0, 6, 0, 0, 1, 7⟩], IsRigid u) ∧
    ∀ u ∈ [(⟨0, -1, 0, 5, 1, 0, 0, 6, 0, 0, 1, 7⟩ : Transform)],
      (u.rotMatᵀ * Transform.one.rotMat).trace ≠ -1 := by
  have h : IsRigid ⟨0, -1, 0, 5, 1, 0, 0, 6, 0, 0, 1, 7⟩ := by
    simp [IsRigid, Transform.rotMat, isRot_coord]
  refine ⟨h, ?_, ?_⟩
  · intro u hu
    simp only [List.mem_cons, List.not_mem_nil, or_false] at hu
    rcases hu with rfl | rfl
    · simp [IsRigid, Transform.rotMat, Transform.one, isRot_coord]
    · exact h
  · intro u hu
    simp only [List.mem_cons, List.not_mem_nil, or_false] at hu
    subst hu
    simp [Transform.rotMat, Transform.one, Matrix.trace_fin_three, Matrix.mul_apply,
      Fin.sum_univ_three]
    norm_num

theorem cumulateAll_perm (first : EQuat) {l l' : List Transform} (h : l.Perm l')
    (ht : ∀ u ∈ l, IsRigid u) : ∀ c, cumulateAll first c l = cumulateAll first c l' := by
  induction h with
  | nil => intro c; rfl
  | cons a h ih =>
    intro c
    simp only [cumulateAll]
    congr 1
    funext c'
    exact ih (fun u hu => ht u (by simp [hu])) c'
  | swap a b l =>
    intro c
    obtain ⟨qa, ha, -⟩ := toEigenQuaternion_spec a (ht a (by simp))
    obtain ⟨qb, hb, -⟩ := toEigenQuaternion_spec b (ht b (by simp))
    simp only [cumulateAll, cumulate, ha, hb, Res.map_ok, Res.bind_ok]
    congr 1
    congr 1
    · funext x; ring
    · congr 1
      · funext x; ring
      · ring
  | trans h1 h2 ih1 ih2 =>
    intro c
    rw [ih1 ht c]
    exact ih2 (fun u hu => ht u (h1.mem_iff.2 hu)) c

/-- The order of the transforms after the first one does not matter. -/
theorem C64_order (t : Transform) (ts ts' : List Transform) (h : ts.Perm ts')
    (ht : ∀ u ∈ t :: ts, IsRigid u) :
    averageTransforms (t :: ts) = averageTransforms (t :: ts') := by
  simp only [averageTransforms, cumulateAll]
  congr 1
  funext q
  congr 1
  · congr 1
    funext c
    exact cumulateAll_perm q h (fun u hu => ht u (by simp [hu])) c
  · rw [List.length_cons, List.length_cons, h.length_eq]

/-- Two transforms exchanged after the first one. -/
example : [Transform.one, ⟨0, -1, 0, 5, 1, 0, 0, 6, 0, 0, 1, 7⟩].Perm
      [⟨0, -1, 0, 5, 1, 0, 0, 6, 0, 0, 1, 7⟩, Transform.one] ∧
    ∀ u ∈ [Transform.one, Transform.one, ⟨0, -1, 0, 5, 1, 0, 0, 6, 0, 0, 1, 7⟩], IsRigid u := by
  refine ⟨.swap _ _ _, fun u hu => ?_⟩
  simp only [List.mem_cons, List.not_mem_nil, or_false] at hu
  rcases hu with rfl | rfl | rfl <;>
    simp [IsRigid, Transform.rotMat, Transform.one, isRot_coord]

/-- Rotation about z, from the cosine and sine of half the angle. Helper of the proofs. Not in /repo:
specification. -/
noncomputable def rotZHalf (w z : ℝ) : Transform :=
  ⟨1 - 2 * z ^ 2, -2 * z * w, 0, 0, 2 * z * w, 1 - 2 * z ^ 2, 0, 0, 0, 0, 1, 0⟩

theorem rotZHalf_rep {w z : ℝ} (h : w * w + z * z = 1) :
    Represents (quat w 0 0 z) (rotZHalf w z).rotMat := by
  rw [represents_iff]
  refine ⟨by linarith, ?_⟩
  ext i j
  fin_cases i <;> fin_cases j <;> simp [rotZHalf, Transform.rotMat] <;> ring

/-- Which transform comes first matters. -/
theorem C64_first_matters : ∃ ts ts' : List Transform, ts.Perm ts' ∧ (∀ u ∈ ts, IsRigid u) ∧
    averageTransforms ts ≠ averageTransforms ts' := by
  have r1 : Represents (quat 1 0 0 0) (rotZHalf 1 0).rotMat := rotZHalf_rep (by norm_num)
  have r2 : Represents (quat (3/5) 0 0 (4/5)) (rotZHalf (3/5) (4/5)).rotMat :=
    rotZHalf_rep (by norm_num)
  have r3 : Represents (quat (-7/25) 0 0 (24/25)) (rotZHalf (-7/25) (24/25)).rotMat :=
    rotZHalf_rep (by norm_num)
  have r3' : Represents (quat (7/25) 0 0 (-24/25)) (rotZHalf (-7/25) (24/25)).rotMat := by
    have := Represents.neg r3
    convert this using 1
    ext <;> simp <;> norm_num
  have hr : ∀ u ∈ [rotZHalf 1 0, rotZHalf (3/5) (4/5), rotZHalf (-7/25) (24/25)], IsRigid u := by
    intro u hu
    simp only [List.mem_cons, List.not_mem_nil, or_false] at hu
    rcases hu with rfl | rfl | rfl
    · exact Represents.isRot r1
    · exact Represents.isRot r2
    · exact Represents.isRot r3
  refine ⟨[rotZHalf 1 0, rotZHalf (3/5) (4/5), rotZHalf (-7/25) (24/25)],
    [rotZHalf (3/5) (4/5), rotZHalf 1 0, rotZHalf (-7/25) (24/25)], .swap _ _ _, hr, ?_⟩
  obtain ⟨r, c, e, -, hc, h⟩ := average_strict (rotZHalf 1 0)
    [rotZHalf (3/5) (4/5), rotZHalf (-7/25) (24/25)] hr _ _
    (.cons r1 (.cons r2 (.cons r3' .nil)))
    (by
      intro p hp
      simp only [List.mem_cons, List.not_mem_nil, or_false] at hp
      rcases hp with rfl | rfl <;> rw [quatDot_eq] <;> norm_num)
  obtain ⟨r', c', e', -, hc', h'⟩ := average_strict (rotZHalf (3/5) (4/5))
    [rotZHalf 1 0, rotZHalf (-7/25) (24/25)]
    (by
      intro u hu
      apply hr
      simp only [List.mem_cons, List.not_mem_nil, or_false] at hu ⊢
      tauto) _ _
    (.cons r2 (.cons r1 (.cons r3 .nil)))
    (by
      intro p hp
      simp only [List.mem_cons, List.not_mem_nil, or_false] at hp
      rcases hp with rfl | rfl <;> rw [quatDot_eq] <;> norm_num)
  rw [e, e']
  intro hrr
  have hrr : r = r' := by simpa using hrr
  have g1 : c • (List.sum [quat 1 0 0 0, quat (3/5) 0 0 (4/5), quat (7/25) 0 0 (-24/25)]) =
      quat (c * (47/25)) 0 0 (c * (-4/25)) := by
    ext <;> simp <;> norm_num <;> ring
  have g2 : c' • (List.sum [quat (3/5) 0 0 (4/5), quat 1 0 0 0, quat (-7/25) 0 0 (24/25)]) =
      quat (c' * (33/25)) 0 0 (c' * (44/25)) := by
    ext <;> simp <;> norm_num <;> ring
  rw [g1, represents_iff] at h
  rw [g2, represents_iff] at h'
  have k := h.2
  rw [hrr, h'.2] at k
  have k := congrFun (congrFun k 1) 0
  simp at k
  nlinarith [mul_pos hc hc, mul_pos hc' hc']

end AlMath
