import Mathlib.Analysis.Real.Pi.Bounds
import Mathlib.Data.List.Perm.Basic
import Verif.Model.AlMath
import Verif.Lemmas.Euler

/-!
C27: modulo2PI. C28: circular means.
-/

namespace AlMath

open Spec

theorem fmod_bound (x : ℝ) : -twoPiF < fmod x twoPiF ∧ fmod x twoPiF < twoPiF := by
  have hp : 0 < twoPiF := by unfold twoPiF; norm_num
  unfold fmod truncZ
  split_ifs with h
  · have h1 := Int.floor_le (x / twoPiF)
    have h2 := Int.lt_floor_add_one (x / twoPiF)
    rw [le_div_iff₀ hp] at h1
    rw [div_lt_iff₀ hp] at h2
    constructor <;> nlinarith
  · have h1 := Int.le_ceil (x / twoPiF)
    have h2 := Int.ceil_lt_add_one (x / twoPiF)
    rw [div_le_iff₀ hp] at h1
    have h3 : (⌈x / twoPiF⌉ : ℝ) - 1 < x / twoPiF := by linarith
    rw [lt_div_iff₀ hp] at h3
    constructor <;> nlinarith

theorem fmod_small {x : ℝ} (h1 : -twoPiF < x) (h2 : x < twoPiF) : fmod x twoPiF = x := by
  have hp : 0 < twoPiF := by unfold twoPiF; norm_num
  have : truncZ (x / twoPiF) = 0 := by
    unfold truncZ
    split_ifs with h
    · rw [Int.floor_eq_zero_iff]
      exact ⟨h, by rw [div_lt_one hp]; exact h2⟩
    · rw [Int.ceil_eq_iff]
      constructor
      · rw [lt_div_iff₀ hp]; push_cast; linarith
      · push_cast; exact (not_le.1 h).le
  unfold fmod
  rw [this]; simp

/-- The result is in range, differs from the input by a whole number of turns, and is
the input if that was in range already (so that a second call changes nothing). PI and
2PI are the library's single-precision constants. -/
theorem C27_modulo2PI (x : ℝ) :
    -piF ≤ modulo2PI x ∧ modulo2PI x ≤ piF ∧
    (∃ k : ℤ, modulo2PI x = x + k * twoPiF) ∧
    (-piF ≤ x → x ≤ piF → modulo2PI x = x) := by
  have h2 : twoPiF = 2 * piF := by unfold twoPiF piF; norm_num
  have hp : 0 < piF := by unfold piF; norm_num
  obtain ⟨h3, h4⟩ := fmod_bound x
  have hk : fmod x twoPiF = x + ((-truncZ (x / twoPiF) : ℤ) : ℝ) * twoPiF := by
    unfold fmod; push_cast; ring
  unfold modulo2PI modulo2PIInPlace
  dsimp only
  split_ifs with h5 h6
  · refine ⟨by linarith, by linarith, ⟨-truncZ (x / twoPiF) - 1, ?_⟩, ?_⟩
    · rw [hk]; push_cast; ring
    · intro h7 h8
      rw [fmod_small (by linarith) (by linarith)] at h5; linarith
  · refine ⟨by linarith, by linarith, ⟨-truncZ (x / twoPiF) + 1, ?_⟩, ?_⟩
    · rw [hk]; push_cast; ring
    · intro h7 h8
      rw [fmod_small (by linarith) (by linarith)] at h6; linarith
  · refine ⟨by linarith, by linarith, ⟨-truncZ (x / twoPiF), hk⟩, ?_⟩
    intro h7 h8
    exact fmod_small (by linarith) (by linarith)

/-- Idempotence. -/
theorem C27_idempotent (x : ℝ) : modulo2PI (modulo2PI x) = modulo2PI x :=
  (C27_modulo2PI _).2.2.2 (C27_modulo2PI x).1 (C27_modulo2PI x).2.1

/-- The sign of the input is kept by the remainder: the two ends of the range are both
reached, PI from PI and -PI from -PI, although they denote the same direction. So two
angles that differ by one turn may get different results. -/
theorem C27_not_canonical : ∃ x y : ℝ, y = x + twoPiF ∧ modulo2PI x ≠ modulo2PI y := by
  have hp : 0 < piF := by unfold piF; norm_num
  have h2 : twoPiF = 2 * piF := by unfold twoPiF piF; norm_num
  refine ⟨-piF, piF, by linarith, ?_⟩
  rw [(C27_modulo2PI (-piF)).2.2.2 (by linarith) (by linarith),
    (C27_modulo2PI piF).2.2.2 (by linarith) (by linarith)]
  intro h; linarith

/-- Away from that one direction the result depends only on the angle modulo whole turns. -/
theorem C27_canonical (x : ℝ) (k : ℤ) (h : |modulo2PI x| < piF) :
    modulo2PI (x + k * twoPiF) = modulo2PI x := by
  have h2 : twoPiF = 2 * piF := by unfold twoPiF piF; norm_num
  have hp : 0 < piF := by unfold piF; norm_num
  obtain ⟨a1, a2, ⟨i, hi⟩, -⟩ := C27_modulo2PI x
  obtain ⟨b1, b2, ⟨j, hj⟩, -⟩ := C27_modulo2PI (x + k * twoPiF)
  obtain ⟨h3, h4⟩ := abs_lt.1 h
  have hd : modulo2PI (x + k * twoPiF) = modulo2PI x + ((k + j - i : ℤ) : ℝ) * twoPiF := by
    rw [hj, hi]; push_cast; ring
  have : k + j - i = 0 := by
    by_contra hn
    rcases lt_or_gt_of_ne hn with hl | hl
    · have : ((k + j - i : ℤ) : ℝ) ≤ -1 := by exact_mod_cast Int.le_sub_one_of_lt hl
      nlinarith
    · have : (1 : ℝ) ≤ ((k + j - i : ℤ) : ℝ) := by exact_mod_cast hl
      nlinarith
  rw [hd, this]; simp

example : |modulo2PI 1| < piF := by
  have h2 : (1 : ℝ) < piF := by unfold piF; norm_num
  rw [(C27_modulo2PI 1).2.2.2 (by linarith) h2.le, abs_one]; exact h2

/-! ### C28 -/

namespace Spec

/-- Weighted sum of the unit vectors at the given angles, as a complex number. Not in
/repo: specification. -/
noncomputable def resultant (l : List (ℝ × ℝ)) : ℂ :=
  (l.map fun p => (p.2 : ℂ) * Complex.exp (p.1 * Complex.I)).sum

end Spec

theorem weightedMeanLoop_eq (l : List (ℝ × ℝ)) (s : Position2D) :
    ((∃ p ∈ l, p.2 ≤ 0) → weightedMeanLoop (l.map Prod.fst) (l.map Prod.snd) s = .throws) ∧
    ((∀ p ∈ l, 0 < p.2) → ∃ s', weightedMeanLoop (l.map Prod.fst) (l.map Prod.snd) s = .ok s' ∧
      (⟨s'.x, s'.y⟩ : ℂ) = ⟨s.x, s.y⟩ + resultant l) := by
  induction l generalizing s with
  | nil => simp [weightedMeanLoop, resultant]
  | cons p l ih =>
    obtain ⟨a, w⟩ := p
    constructor
    · rintro ⟨q, hq, hw⟩
      by_cases h : w ≤ 0
      · simp [weightedMeanLoop, h]
      · simp only [List.map_cons, weightedMeanLoop, if_neg h]
        apply (ih _).1
        rcases List.mem_cons.1 hq with rfl | hq
        · exact absurd hw h
        · exact ⟨q, hq, hw⟩
    · intro hall
      have hw : ¬ w ≤ 0 := not_le.2 (hall (a, w) (by simp))
      simp only [List.map_cons, weightedMeanLoop, if_neg hw]
      obtain ⟨s', h1, h2⟩ := (ih (Position2D.addAssign s
        (Position2D.smul ⟨Real.cos a, Real.sin a⟩ w))).2 fun p hp => hall p (by simp [hp])
      refine ⟨s', h1, ?_⟩
      rw [h2]
      have he : (w : ℂ) * Complex.exp (a * Complex.I) = ⟨Real.cos a * w, Real.sin a * w⟩ := by
        rw [Complex.exp_mul_I]
        apply Complex.ext <;> simp [← Complex.ofReal_cos, ← Complex.ofReal_sin] <;> ring
      simp only [resultant, List.map_cons, List.sum_cons, he]
      rw [← add_assoc]
      congr 1

theorem mk_norm (s : Position2D) : ‖(⟨s.x, s.y⟩ : ℂ)‖ = Position2D.norm s := by
  rw [Complex.norm_def, Complex.normSq_mk]; rfl

theorem pi_le_piF : Real.pi ≤ piF := by
  have := Real.pi_lt_d20
  unfold piF
  norm_num at *
  linarith

theorem modulo_atan2 (y x : ℝ) : modulo2PI (atan2 y x) = atan2 y x := by
  obtain ⟨h1, h2⟩ := atan2_mem y x
  have := pi_le_piF
  exact (C27_modulo2PI _).2.2.2 (by linarith) (by linarith)

/-- Outcome of `weightedMeanAngle` on lists given as pairs (angle, weight). -/
theorem weightedMean_eq (l : List (ℝ × ℝ)) :
    (((∃ p ∈ l, p.2 ≤ 0) ∨ ‖resultant l‖ < 0.001) →
      weightedMeanAngle (l.map Prod.fst) (l.map Prod.snd) = .throws) ∧
    ((∀ p ∈ l, 0 < p.2) → 0.001 ≤ ‖resultant l‖ →
      weightedMeanAngle (l.map Prod.fst) (l.map Prod.snd) = .ok (resultant l).arg) := by
  have hlen : ¬ ((l.map Prod.fst).length ≠ (l.map Prod.snd).length) := by simp
  obtain ⟨k1, k2⟩ := weightedMeanLoop_eq l Position2D.zero
  have hz : (⟨Position2D.zero.x, Position2D.zero.y⟩ : ℂ) = 0 := by
    apply Complex.ext <;> simp [Position2D.zero]
  unfold weightedMeanAngle
  rw [if_neg hlen]
  by_cases hw : ∃ p ∈ l, p.2 ≤ 0
  · constructor
    · intro _; rw [k1 hw]; rfl
    · intro h; obtain ⟨p, hp, hp2⟩ := hw; exact absurd (h p hp) (not_lt.2 hp2)
  · have hw' : ∀ p ∈ l, 0 < p.2 := by
      intro p hp; by_contra hn; exact hw ⟨p, hp, not_lt.1 hn⟩
    obtain ⟨s', h1, h2⟩ := k2 hw'
    rw [hz, zero_add] at h2
    rw [h1, Res.bind_ok, ← mk_norm, h2]
    constructor
    · rintro (h | h)
      · exact absurd h hw
      · rw [if_pos h]
    · intro _ h
      rw [if_neg (not_lt.2 h), modulo_atan2]
      unfold atan2
      rw [h2]

/-- Two lists of equal length are the components of a list of pairs. -/
theorem pairs_of_length {as ws : List ℝ} (h : as.length = ws.length) :
    ∃ l : List (ℝ × ℝ), as = l.map Prod.fst ∧ ws = l.map Prod.snd :=
  ⟨as.zip ws, (List.map_fst_zip h.le).symm, (List.map_snd_zip h.ge).symm⟩

/-- Throws exactly if the sizes differ, a weight is not positive or the resultant is
shorter than 1e-3; otherwise returns the direction of the resultant, in (-π, π]. -/
theorem C28_outcome (as ws : List ℝ) :
    ((as.length ≠ ws.length ∨ (∃ w ∈ ws, w ≤ 0) ∨ ‖resultant (as.zip ws)‖ < 0.001) →
      weightedMeanAngle as ws = .throws) ∧
    (¬ (as.length ≠ ws.length ∨ (∃ w ∈ ws, w ≤ 0) ∨ ‖resultant (as.zip ws)‖ < 0.001) →
      ∃ r : ℝ, weightedMeanAngle as ws = .ok r ∧ -Real.pi < r ∧ r ≤ Real.pi ∧
        resultant (as.zip ws) = ‖resultant (as.zip ws)‖ * Complex.exp (r * Complex.I)) := by
  by_cases h : as.length ≠ ws.length
  · constructor
    · intro _; unfold weightedMeanAngle; rw [if_pos h]
    · intro hn; exact absurd (Or.inl h) hn
  · rw [ne_eq, not_not] at h
    obtain ⟨l, rfl, rfl⟩ := pairs_of_length h
    have hz : (l.map Prod.fst).zip (l.map Prod.snd) = l := by
      rw [List.zip_map']; simp
    rw [hz]
    obtain ⟨k1, k2⟩ := weightedMean_eq l
    have hex : (∃ w ∈ l.map Prod.snd, w ≤ 0) ↔ ∃ p ∈ l, p.2 ≤ 0 := by
      simp only [List.mem_map]
      constructor
      · rintro ⟨w, ⟨p, hp, rfl⟩, hw⟩; exact ⟨p, hp, hw⟩
      · rintro ⟨p, hp, hw⟩; exact ⟨_, ⟨p, hp, rfl⟩, hw⟩
    rw [hex]
    constructor
    · rintro (h' | h')
      · exact absurd h h'
      · exact k1 h'
    · intro hn
      push Not at hn
      refine ⟨_, k2 (fun p hp => hn.2.1 p hp) hn.2.2, Complex.neg_pi_lt_arg _,
        Complex.arg_le_pi _, ?_⟩
      exact (Complex.norm_mul_exp_arg_mul_I _).symm

example : weightedMeanAngle [0, 1] [1] = .throws :=
  (C28_outcome _ _).1 (Or.inl (by norm_num))

example : ‖resultant [((0 : ℝ), (2 : ℝ))]‖ = 2 := by simp [resultant]

/-- The order of the pairs (angle, weight) does not matter. -/
theorem C28_permutation {l l' : List (ℝ × ℝ)} (h : l.Perm l') :
    weightedMeanAngle (l.map Prod.fst) (l.map Prod.snd) =
      weightedMeanAngle (l'.map Prod.fst) (l'.map Prod.snd) := by
  have hr : resultant l = resultant l' := (h.map _).sum_eq
  have hw : (∃ p ∈ l, p.2 ≤ 0) ↔ ∃ p ∈ l', p.2 ≤ 0 := by
    simp only [h.mem_iff]
  obtain ⟨k1, k2⟩ := weightedMean_eq l
  obtain ⟨m1, m2⟩ := weightedMean_eq l'
  rw [hr, hw] at k1
  rw [hr] at k2
  by_cases hc : (∃ p ∈ l', p.2 ≤ 0) ∨ ‖resultant l'‖ < 0.001
  · rw [k1 hc, m1 hc]
  · push Not at hc
    rw [k2 (fun p hp => hc.1 p (h.mem_iff.1 hp)) hc.2, m2 hc.1 hc.2]

example : ([(0, 1), (1, 2)] : List (ℝ × ℝ)).Perm [(1, 2), (0, 1)] := List.Perm.swap _ _ _

/-- Adding whole turns to any of the angles does not change the outcome. -/
theorem C28_shift {l l' : List (ℝ × ℝ)}
    (h : List.Forall₂ (fun p q => q.2 = p.2 ∧ ∃ k : ℤ, q.1 = p.1 + k * (2 * Real.pi)) l l') :
    weightedMeanAngle (l.map Prod.fst) (l.map Prod.snd) =
      weightedMeanAngle (l'.map Prod.fst) (l'.map Prod.snd) := by
  have hr : resultant l' = resultant l := by
    induction h with
    | nil => rfl
    | cons h1 _ ih =>
      obtain ⟨hw, k, hk⟩ := h1
      simp only [resultant, List.map_cons, List.sum_cons] at ih ⊢
      rw [ih, hw, hk]
      congr 2
      rw [Complex.exp_eq_exp_iff_exists_int]
      exact ⟨k, by push_cast; ring⟩
  have hw : l.map Prod.snd = l'.map Prod.snd := by
    clear hr
    induction h with
    | nil => rfl
    | cons h1 _ ih => simp only [List.map_cons, h1.1, ih]
  have hall : ∀ P : ℝ → Prop, (∀ p ∈ l, P p.2) ↔ ∀ p ∈ l', P p.2 := by
    intro P
    have h1 : (∀ p ∈ l, P p.2) ↔ ∀ w ∈ l.map Prod.snd, P w := by
      simp only [List.forall_mem_map]
    have h2 : (∀ p ∈ l', P p.2) ↔ ∀ w ∈ l'.map Prod.snd, P w := by
      simp only [List.forall_mem_map]
    rw [h1, h2, hw]
  obtain ⟨k1, k2⟩ := weightedMean_eq l
  obtain ⟨m1, m2⟩ := weightedMean_eq l'
  rw [hr] at m1 m2
  by_cases hc : (∃ p ∈ l, p.2 ≤ 0) ∨ ‖resultant l‖ < 0.001
  · rw [k1 hc, m1]
    rcases hc with hc | hc
    · left
      by_contra hn
      push Not at hn
      obtain ⟨p, hp, hp2⟩ := hc
      exact absurd ((hall (fun w => 0 < w)).2 hn p hp) (not_lt.2 hp2)
    · right; exact hc
  · push Not at hc
    rw [k2 hc.1 hc.2, m2 ((hall (fun w => 0 < w)).1 hc.1) hc.2]

example : List.Forall₂ (fun p q : ℝ × ℝ => q.2 = p.2 ∧ ∃ k : ℤ, q.1 = p.1 + k * (2 * Real.pi))
    [(1, 3)] [(1 + (-2 : ℤ) * (2 * Real.pi), 3)] :=
  List.Forall₂.cons ⟨rfl, -2, rfl⟩ List.Forall₂.nil

/-- Multiplying all weights by a positive factor does not change a returned mean, unless
the scaled resultant falls below the threshold, when the call throws. -/
theorem C28_scaling (l : List (ℝ × ℝ)) (k r : ℝ) (hk : 0 < k)
    (h : weightedMeanAngle (l.map Prod.fst) (l.map Prod.snd) = .ok r) :
    weightedMeanAngle (l.map Prod.fst) (l.map fun p => k * p.2) =
      if k * ‖resultant l‖ < 0.001 then .throws else .ok r := by
  have hr : resultant (l.map fun p => (p.1, k * p.2)) = k * resultant l := by
    unfold resultant
    rw [List.map_map, ← List.sum_map_mul_left]
    congr 1
    apply List.map_congr_left
    intro p _
    simp [mul_assoc]
  obtain ⟨k1, k2⟩ := weightedMean_eq l
  obtain ⟨m1, m2⟩ := weightedMean_eq (l.map fun p => (p.1, k * p.2))
  rw [hr, norm_mul, Complex.norm_real, Real.norm_of_nonneg hk.le] at m1 m2
  have e1 : (l.map fun p => (p.1, k * p.2)).map Prod.fst = l.map Prod.fst := by
    simp [Function.comp_def]
  have e2 : (l.map fun p => (p.1, k * p.2)).map Prod.snd = l.map fun p => k * p.2 := by
    simp [Function.comp_def]
  rw [e1, e2] at m1 m2
  have hc : ¬ ((∃ p ∈ l, p.2 ≤ 0) ∨ ‖resultant l‖ < 0.001) := by
    intro hc; rw [k1 hc] at h; cases h
  push Not at hc
  rw [k2 hc.1 hc.2] at h
  have h := Res.ok.inj h
  split_ifs with hs
  · exact m1 (Or.inr hs)
  · rw [m2 ?_ (not_lt.1 hs), Complex.arg_real_mul _ hk, h]
    intro p hp
    obtain ⟨q, hq, rfl⟩ := List.mem_map.1 hp
    exact mul_pos hk (hc.1 q hq)

/-- The unweighted mean is the direction of the plain sum of unit vectors; it throws
exactly if that sum is shorter than 1e-3. -/
theorem C28_mean (as : List ℝ) :
    let z : ℂ := (as.map fun a : ℝ => Complex.exp (a * Complex.I)).sum
    (‖z‖ < 0.001 → meanAngle as = .throws) ∧
    (0.001 ≤ ‖z‖ → ∃ r : ℝ, meanAngle as = .ok r ∧ -Real.pi < r ∧ r ≤ Real.pi ∧
      z = ‖z‖ * Complex.exp (r * Complex.I)) := by
  intro z
  have hz : resultant (as.zip (List.replicate as.length 1)) = z := by
    have : as.zip (List.replicate as.length (1 : ℝ)) = as.map fun a => (a, 1) := by
      induction as with
      | nil => rfl
      | cons a as ih => simp [List.replicate_succ, ih]
    rw [this]
    simp only [resultant, z, List.map_map]
    congr 1
    apply List.map_congr_left
    intro a _
    simp
  have h := C28_outcome as (List.replicate as.length 1)
  rw [hz] at h
  unfold meanAngle
  refine ⟨fun h1 => h.1 (Or.inr (Or.inr h1)), fun h1 => h.2 ?_⟩
  push Not
  refine ⟨by simp, ?_, h1⟩
  intro w hw
  rw [List.eq_of_mem_replicate hw]; norm_num

/-- The mean of equal angles, whatever the weights, is that angle up to whole turns. -/
theorem C28_identical (a : ℝ) (ws : List ℝ) (hw : ∀ w ∈ ws, 0 < w) (hs : 0.001 ≤ ws.sum) :
    ∃ (r : ℝ) (k : ℤ), weightedMeanAngle (List.replicate ws.length a) ws = .ok r ∧
      r = a + k * (2 * Real.pi) := by
  have hz : resultant ((List.replicate ws.length a).zip ws) =
      (ws.sum : ℂ) * Complex.exp (a * Complex.I) := by
    clear hw hs
    induction ws with
    | nil => simp [resultant]
    | cons w ws ih =>
      simp only [resultant, List.length_cons, List.replicate_succ, List.zip_cons_cons, List.map_cons,
        List.sum_cons] at ih ⊢
      rw [ih]; push_cast; ring
  have hp : 0 < ws.sum := by norm_num at hs; linarith
  have hn : ‖resultant ((List.replicate ws.length a).zip ws)‖ = ws.sum := by
    rw [hz, norm_mul, Complex.norm_exp_ofReal_mul_I, mul_one, Complex.norm_real,
      Real.norm_of_nonneg hp.le]
  obtain ⟨r, h1, -, -, h2⟩ := (C28_outcome (List.replicate ws.length a) ws).2 (by
    rw [hn]
    push Not
    exact ⟨by simp, hw, hs⟩)
  rw [hn, hz] at h2
  have hne : (ws.sum : ℂ) ≠ 0 := by exact_mod_cast hp.ne'
  have h3 := mul_left_cancel₀ hne h2
  rw [Complex.exp_eq_exp_iff_exists_int] at h3
  obtain ⟨k, hk⟩ := h3
  refine ⟨r, -k, h1, ?_⟩
  have : (a : ℂ) = r + k * (2 * Real.pi) := by
    have hI := Complex.I_ne_zero
    apply mul_right_cancel₀ hI
    rw [hk]; ring
  have : a = r + k * (2 * Real.pi) := by exact_mod_cast this
  rw [this]; push_cast; ring

example : (∀ w ∈ [(2 : ℝ), 3], 0 < w) ∧ (0.001 : ℝ) ≤ [(2 : ℝ), 3].sum := by norm_num

/-- An empty list of angles has no mean. -/
theorem C28_empty : meanAngle [] = .throws :=
  (C28_mean []).1 (by simp; norm_num)

end AlMath
