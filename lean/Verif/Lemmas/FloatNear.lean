import Verif.Lemmas.FloatDot

/-!
Propagation of error bounds through expressions of floats.
-/

namespace AlMath.F32

/-- The float `f` is finite and within `ε` of `x`. Helper of the proofs. Not in /repo: specification. -/
def Near (f : F32) (x ε : ℝ) : Prop := ∃ t, f = fin t ∧ Rep t ∧ |t - x| ≤ ε

theorem Near.of_rep {x : ℝ} (h : Rep x) : Near (fin x) x 0 := ⟨x, rfl, h, by simp⟩

theorem Near.mono {f : F32} {x ε δ : ℝ} (h : Near f x ε) (hδ : ε ≤ δ) : Near f x δ := by
  obtain ⟨t, h1, h2, h3⟩ := h
  exact ⟨t, h1, h2, h3.trans hδ⟩

theorem Near.neg {f : F32} {x ε : ℝ} (h : Near f x ε) : Near (neg f) (-x) ε := by
  obtain ⟨t, rfl, h2, h3⟩ := h
  refine ⟨-t, rfl, h2.neg, ?_⟩
  rwa [← neg_sub', abs_neg]

/-- A rounded result. The summand 2^-40 covers the least positive numbers. -/
theorem Near.round {t x ε M : ℝ} (ht : |t - x| ≤ ε) (hx : |x| ≤ M) (hM : M + ε ≤ 2 ^ 100) :
    Near (round t) x (ε + (1 / 16777216 * (M + ε) + 1 / 1099511627776)) := by
  have h1 := le_of_err ht
  have h2 : |t| ≤ M + ε := by linarith
  have h3 : |t| ≤ 2 ^ 127 := (h2.trans hM).trans (by norm_num)
  refine ⟨rnd t, round_fin h3, rnd_rep h3, ?_⟩
  have h4 := rnd_gen t
  have w : (2 : ℝ) ^ (-150 : ℤ) ≤ 1 / 1099511627776 := by
    have : (2 : ℝ) ^ (-150 : ℤ) ≤ 2 ^ (-40 : ℤ) := zpow_le_zpow_right₀ (by norm_num) (by norm_num)
    refine this.trans (le_of_eq ?_)
    norm_num
  rw [two_neg24] at h4
  generalize (2 : ℝ) ^ (-150 : ℤ) = η at *
  have h5 := abs_add_le (rnd t - t) (t - x)
  rw [sub_add_sub_cancel] at h5
  linarith

theorem Near.mul {f g : F32} {x y ε δ M N : ℝ} (hf : Near f x ε) (hg : Near g y δ) (hx : |x| ≤ M) (hy : |y| ≤ N) (θ : ℝ)
    (hM : (M + ε) * (N + δ) ≤ 1000)
    (hθ : M * δ + ε * N + ε * δ + (1 / 16777216 * ((M + ε) * (N + δ)) + 1 / 1099511627776) ≤ θ) :
    Near (mul f g) (x * y) θ := by
  obtain ⟨s, rfl, h1, h2⟩ := hf
  obtain ⟨t, rfl, k1, k2⟩ := hg
  have hε : 0 ≤ ε := (abs_nonneg _).trans h2
  have hδ : 0 ≤ δ := (abs_nonneg _).trans k2
  have hM0 : 0 ≤ M := (abs_nonneg _).trans hx
  have hN0 : 0 ≤ N := (abs_nonneg _).trans hy
  have e : s * t - x * y = x * (t - y) + (s - x) * y + (s - x) * (t - y) := by ring
  have h3 : |s * t - x * y| ≤ M * δ + ε * N + ε * δ := by
    rw [e]
    refine (abs_add_le _ _).trans (add_le_add ((abs_add_le _ _).trans (add_le_add ?_ ?_)) ?_) <;> rw [abs_mul]
    · exact mul_le_mul hx k2 (abs_nonneg _) hM0
    · exact mul_le_mul h2 hy (abs_nonneg _) hε
    · exact mul_le_mul h2 k2 (abs_nonneg _) hε
  have h4 : |x * y| ≤ M * N := by rw [abs_mul]; exact mul_le_mul hx hy (abs_nonneg _) hM0
  have e2 : M * N + (M * δ + ε * N + ε * δ) = (M + ε) * (N + δ) := by ring
  have := Near.round h3 h4 (by rw [e2]; exact hM.trans (by norm_num))
  rw [e2] at this
  exact this.mono hθ

theorem Near.add {f g : F32} {x y ε δ M : ℝ} (hf : Near f x ε) (hg : Near g y δ) (hx : |x + y| ≤ M) (θ : ℝ)
    (hM : M + (ε + δ) ≤ 1000)
    (hθ : ε + δ + (1 / 16777216 * (M + (ε + δ)) + 1 / 1099511627776) ≤ θ) :
    Near (add f g) (x + y) θ := by
  obtain ⟨s, rfl, h1, h2⟩ := hf
  obtain ⟨t, rfl, k1, k2⟩ := hg
  have e : s + t - (x + y) = (s - x) + (t - y) := by ring
  have h3 : |s + t - (x + y)| ≤ ε + δ := by
    rw [e]
    exact (abs_add_le _ _).trans (add_le_add h2 k2)
  exact (Near.round h3 hx (hM.trans (by norm_num))).mono hθ

theorem Near.sub {f g : F32} {x y ε δ M : ℝ} (hf : Near f x ε) (hg : Near g y δ) (hx : |x - y| ≤ M) (θ : ℝ)
    (hM : M + (ε + δ) ≤ 1000)
    (hθ : ε + δ + (1 / 16777216 * (M + (ε + δ)) + 1 / 1099511627776) ≤ θ) :
    Near (sub f g) (x - y) θ := by
  rw [F32.sub, sub_eq_add_neg]
  exact Near.add hf hg.neg (by rwa [← sub_eq_add_neg]) θ hM hθ

end AlMath.F32
