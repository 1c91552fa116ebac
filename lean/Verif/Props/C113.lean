import Verif.Model.FloatSix
import Verif.Props.C77

/-!
C113: norms, distances and normalisation of the types with six components in single precision.
-/

namespace AlMath.F32

/-- The Euclidean norm of six numbers. Not in /repo: specification. -/
noncomputable def len6 (x y z a b c : ℝ) : ℝ := Real.sqrt (x ^ 2 + y ^ 2 + z ^ 2 + a ^ 2 + b ^ 2 + c ^ 2)

theorem len6_sq (x y z a b c : ℝ) : len6 x y z a b c ^ 2 = x ^ 2 + y ^ 2 + z ^ 2 + a ^ 2 + b ^ 2 + c ^ 2 :=
  Real.sq_sqrt (by positivity)

theorem abs_le_len6 (x y z a b c : ℝ) : |x| ≤ len6 x y z a b c ∧ |y| ≤ len6 x y z a b c ∧ |z| ≤ len6 x y z a b c ∧
    |a| ≤ len6 x y z a b c ∧ |b| ≤ len6 x y z a b c ∧ |c| ≤ len6 x y z a b c := by
  unfold len6
  refine ⟨?_, ?_, ?_, ?_, ?_, ?_⟩ <;> refine Real.abs_le_sqrt ?_ <;>
    linarith [sq_nonneg x, sq_nonneg y, sq_nonneg z, sq_nonneg a, sq_nonneg b, sq_nonneg c]

/-- The sum of six squares as the two norms write it. Not in /repo: used in the proofs. -/
noncomputable def sum6 (x y z a b c : F32) : F32 :=
  add (add (add (add (add (mul x x) (mul y y)) (mul z z)) (mul a a)) (mul b b)) (mul c c)

/-- One more square in a sum of squares. -/
theorem add_sq_fin {d S q ε δ : ℝ} (hg : Grid d) (hS : 0 ≤ S) (hε : 0 ≤ ε) (hε1 : ε ≤ 1 / 1048576)
    (hδ : 0 ≤ δ) (hδ1 : δ ≤ 64) (hd : |d - S| ≤ ε * S + δ) (hb : S + q ^ 2 ≤ 2 ^ 125) :
    ∃ d', add (fin d) (mul (fin q) (fin q)) = fin d' ∧ Grid d' ∧
      |d' - (S + q ^ 2)| ≤ (ε + 5 / 2 * (1 / 16777216)) * (S + q ^ 2) + 5 / 4 * (δ + 2 ^ (-150 : ℤ)) := by
  have hq0 := sq_nonneg q
  have p := rnd_mul q q
  rw [abs_mul_abs_self, ← sq] at p
  have s := rnd_add hg (rnd_grid (q ^ 2))
  have e1 := le_of_err hd
  rw [abs_of_nonneg hS] at e1
  have e2 := le_of_err p
  rw [abs_of_nonneg hq0] at e2
  have e3 := abs_add_le d (rnd (q ^ 2))
  have he := eta_pos
  have he1 := eta_le
  have hεS : ε * S ≤ 1 / 1048576 * S := mul_le_mul_of_nonneg_right hε1 hS
  have hεq : 0 ≤ ε * q ^ 2 := mul_nonneg hε hq0
  have h0εS : 0 ≤ ε * S := mul_nonneg hε hS
  have big : (2 : ℝ) ^ 125 + 2 ^ 125 ≤ 2 ^ 127 := by norm_num
  have big1 : (1024 : ℝ) ≤ 2 ^ 125 := by norm_num
  rw [two_neg24] at *
  generalize (2 : ℝ) ^ (-150 : ℤ) = η at *
  generalize (2 : ℝ) ^ 125 = M at *
  have k1 : |q * q| ≤ 2 ^ 127 := by
    rw [← sq, abs_of_nonneg hq0]
    generalize (2 : ℝ) ^ 127 = M' at *
    linarith
  have k2 : |d + rnd (q ^ 2)| ≤ 2 ^ 127 := by
    generalize (2 : ℝ) ^ 127 = M' at *
    linarith
  refine ⟨rnd (d + rnd (q ^ 2)), ?_, rnd_grid _, ?_⟩
  · rw [mul_fin k1, ← sq, add_fin k2]
  · rw [show rnd (d + rnd (q ^ 2)) - (S + q ^ 2) = (rnd (d + rnd (q ^ 2)) - (d + rnd (q ^ 2))) + (d - S) +
      (rnd (q ^ 2) - q ^ 2) by ring]
    have q1 := abs_add_le ((rnd (d + rnd (q ^ 2)) - (d + rnd (q ^ 2))) + (d - S)) (rnd (q ^ 2) - q ^ 2)
    have q2 := abs_add_le (rnd (d + rnd (q ^ 2)) - (d + rnd (q ^ 2))) (d - S)
    rw [show (ε + 5 / 2 * (1 / 16777216)) * (S + q ^ 2) =
      ε * S + ε * q ^ 2 + 5 / 2 * (1 / 16777216) * (S + q ^ 2) by ring]
    linarith

/-- The sum of the six squares, relative to the exact one. -/
theorem sum6_fin {x y z a b c N : ℝ} (hN : x ^ 2 + y ^ 2 + z ^ 2 + a ^ 2 + b ^ 2 + c ^ 2 = N ^ 2)
    (hl : 2 ^ (-60 : ℤ) ≤ N) (hu : N ≤ 2 ^ 62) :
    ∃ d, sum6 (fin x) (fin y) (fin z) (fin a) (fin b) (fin c) = fin d ∧ |d - N ^ 2| ≤ 12 * (1 / 16777216) * N ^ 2 := by
  have h0 : 0 ≤ N := (two_zpow_pos _).le.trans hl
  have hN2 : N ^ 2 ≤ 2 ^ 125 := by
    calc N ^ 2 ≤ (2 ^ 62) ^ 2 := by gcongr
      _ ≤ 2 ^ 125 := by norm_num
  have ha0 := sq_nonneg a
  have hb0 := sq_nonneg b
  have hc0 := sq_nonneg c
  have hS0 : 0 ≤ x ^ 2 + y ^ 2 + z ^ 2 := by positivity
  have he := eta_pos
  have hη : (2 : ℝ) ^ (-150 : ℤ) ≤ 1 / 2 ^ 30 * N ^ 2 := by
    calc (2 : ℝ) ^ (-150 : ℤ) = 1 / 2 ^ 30 * (2 ^ (-60 : ℤ)) ^ 2 := by norm_num
      _ ≤ _ := by gcongr
  have he1 := eta_le
  have e : |x| * |x| + |y| * |y| + |z| * |z| = x ^ 2 + y ^ 2 + z ^ 2 := by
    rw [abs_mul_abs_self, abs_mul_abs_self, abs_mul_abs_self]
    ring
  have e' : x * x + y * y + z * z = x ^ 2 + y ^ 2 + z ^ 2 := by ring
  obtain ⟨d0, i0, r0, j0⟩ := dot_fin (a := x) (b := y) (c := z) (x := x) (y := y) (z := z) (by rw [e]; linarith)
  rw [e, e', four_eta, show (2 : ℝ) ^ (-22 : ℤ) = 4 * (1 / 16777216) by norm_num] at j0
  obtain ⟨d1, i1, g1, j1⟩ := add_sq_fin (q := a) r0.grid hS0 (by norm_num) (by norm_num) (by positivity)
    (by linarith) j0 (by linarith)
  obtain ⟨d2, i2, g2, j2⟩ := add_sq_fin (q := b) g1 (by positivity) (by norm_num) (by norm_num) (by positivity)
    (by linarith) j1 (by linarith)
  obtain ⟨d3, i3, g3, j3⟩ := add_sq_fin (q := c) g2 (by positivity) (by norm_num) (by norm_num) (by positivity)
    (by linarith) j2 (by linarith)
  refine ⟨d3, ?_, ?_⟩
  · rw [dot] at i0
    rw [sum6, i0, i1, i2, i3]
  · rw [hN] at j3
    refine j3.trans ?_
    generalize (2 : ℝ) ^ (-150 : ℤ) = η at *
    norm_num at hη ⊢
    linarith

/-- The square root of the sum. -/
theorem sqrt6_fin {x y z a b c : ℝ} (hl : 2 ^ (-60 : ℤ) ≤ len6 x y z a b c) (hu : len6 x y z a b c ≤ 2 ^ 62) :
    ∃ n, sqrt (sum6 (fin x) (fin y) (fin z) (fin a) (fin b) (fin c)) = fin n ∧ Rep n ∧
      |n - len6 x y z a b c| ≤ 2 ^ (-20 : ℤ) * len6 x y z a b c := by
  obtain ⟨d, hd, hd2⟩ := sum6_fin (len6_sq x y z a b c).symm hl hu
  generalize len6 x y z a b c = N at *
  have hNp : 0 < N := lt_of_lt_of_le (two_zpow_pos _) hl
  have hsq := sqrt_err hNp.le (by norm_num) (by norm_num) hd2
  have hN2 : (0 : ℝ) ≤ N ^ 2 := by positivity
  have hd0 : ¬ d < 0 := by
    have := (abs_le.1 hd2).1
    linarith
  obtain ⟨s1, s2⟩ := abs_le.1 hsq
  have hsl : 2 ^ (-126 : ℤ) ≤ |Real.sqrt d| := by
    rw [abs_of_nonneg (Real.sqrt_nonneg d)]
    have h61 : (2 : ℝ) ^ (-126 : ℤ) ≤ 2 ^ (-60 : ℤ) / 2 := by norm_num
    generalize (2 : ℝ) ^ (-126 : ℤ) = b2 at *
    generalize (2 : ℝ) ^ (-60 : ℤ) = b4 at *
    linarith
  have hsu : |Real.sqrt d| ≤ 2 ^ 127 := by
    rw [abs_of_nonneg (Real.sqrt_nonneg d)]
    have : (2 : ℝ) ^ 62 + 2 ^ 62 ≤ 2 ^ 127 := by norm_num
    generalize (2 : ℝ) ^ 127 = b1 at *
    generalize (2 : ℝ) ^ 62 = b2 at *
    linarith
  have hr := rnd_rel hsl
  refine ⟨rnd (Real.sqrt d), ?_, rnd_rep hsu, ?_⟩
  · rw [hd, sqrt, if_neg hd0, round_fin hsu]
  · rw [abs_of_nonneg (Real.sqrt_nonneg d), two_neg24] at hr
    have q := abs_add_le (rnd (Real.sqrt d) - Real.sqrt d) (Real.sqrt d - N)
    rw [show rnd (Real.sqrt d) - Real.sqrt d + (Real.sqrt d - N) = rnd (Real.sqrt d) - N by ring] at q
    rw [show (2 : ℝ) ^ (-20 : ℤ) = 16 * (1 / 16777216) by norm_num]
    linarith

/-- The norms of six components that are neither all tiny nor huge are accurate. -/
theorem C113_norm (x y z a b c : ℝ) (hl : 2 ^ (-60 : ℤ) ≤ len6 x y z a b c) (hu : len6 x y z a b c ≤ 2 ^ 62) :
    ∃ n, Position6D.norm ⟨fin x, fin y, fin z, fin a, fin b, fin c⟩ = fin n ∧
      Velocity6D.norm ⟨fin x, fin y, fin z, fin a, fin b, fin c⟩ = fin n ∧ Rep n ∧
      |n - len6 x y z a b c| ≤ 2 ^ (-20 : ℤ) * len6 x y z a b c := by
  obtain ⟨n, h1, h2, h3⟩ := sqrt6_fin hl hu
  exact ⟨n, h1, h1, h2, h3⟩

/-- Closeness of a component to the one of the unit vector. Not in /repo: specification. -/
def UnitComp (N x p : ℝ) : Prop := Rep p ∧ |p - x / N| ≤ 2 ^ (-19 : ℤ) * (|x| / N) + 2 ^ (-150 : ℤ)

/-- Normalising six components that are neither all tiny nor huge throws no exception and gives the unit vector of the
same direction, with a relative error in each component. -/
theorem C113_normalize (x y z a b c : ℝ) (hl : 2 ^ (-60 : ℤ) ≤ len6 x y z a b c) (hu : len6 x y z a b c ≤ 2 ^ 62) :
    ∃ p q r s t u, Position6D.normalize ⟨fin x, fin y, fin z, fin a, fin b, fin c⟩ =
        .ok ⟨fin p, fin q, fin r, fin s, fin t, fin u⟩ ∧
      Velocity6D.normalize ⟨fin x, fin y, fin z, fin a, fin b, fin c⟩ = .ok ⟨fin p, fin q, fin r, fin s, fin t, fin u⟩ ∧
      UnitComp (len6 x y z a b c) x p ∧ UnitComp (len6 x y z a b c) y q ∧ UnitComp (len6 x y z a b c) z r ∧
      UnitComp (len6 x y z a b c) a s ∧ UnitComp (len6 x y z a b c) b t ∧ UnitComp (len6 x y z a b c) c u := by
  obtain ⟨n, hn, hn', -, he⟩ := C113_norm x y z a b c hl hu
  obtain ⟨hx, hy, hz, ha, hb, hc⟩ := abs_le_len6 x y z a b c
  obtain ⟨i, p, x1, x2, x3, x4, x5⟩ := scale_err hl hu hx he
  obtain ⟨_, q, -, y2, rfl, y4, y5⟩ := scale_err hl hu hy he
  obtain ⟨_, r, -, z2, rfl, z4, z5⟩ := scale_err hl hu hz he
  obtain ⟨_, s, -, a2, rfl, a4, a5⟩ := scale_err hl hu ha he
  obtain ⟨_, t, -, b2, rfl, b4, b5⟩ := scale_err hl hu hb he
  obtain ⟨_, u, -, c2, rfl, c4, c5⟩ := scale_err hl hu hc he
  subst x3
  have hn0 : ¬ eq (fin n) (fin 0) := by
    have hNp : 0 < len6 x y z a b c := lt_of_lt_of_le (two_zpow_pos _) hl
    have := (abs_le.1 he).1
    intro hc
    have hc : n = 0 := hc
    rw [hc] at this
    norm_num at this
    linarith
  refine ⟨p, q, r, s, t, u, ?_, ?_, ⟨x4, x5⟩, ⟨y4, y5⟩, ⟨z4, z5⟩, ⟨a4, a5⟩, ⟨b4, b5⟩, ⟨c4, c5⟩⟩
  · rw [Position6D.normalize, hn, if_neg hn0, Position6D.div, if_neg hn0, Position6D.smul]
    dsimp only
    rw [x1, x2, y2, z2, a2, b2, c2]
  · rw [Velocity6D.normalize, hn', if_neg hn0, Velocity6D.div, if_neg hn0, Velocity6D.smul]
    dsimp only
    rw [x1, x2, y2, z2, a2, b2, c2]

/-- Six components that are all tiny are not normalised, even if they are not 0: the norm underflows to 0. -/
theorem C113_underflow (x y z a b c : ℝ) (h : ∀ v ∈ [x, y, z, a, b, c], |v| ≤ 2 ^ (-75 : ℤ)) :
    Position6D.normalize ⟨fin x, fin y, fin z, fin a, fin b, fin c⟩ = .throws ∧
    Velocity6D.normalize ⟨fin x, fin y, fin z, fin a, fin b, fin c⟩ = .throws := by
  have key : ∀ v ∈ [x, y, z, a, b, c], mul (fin v) (fin v) = fin 0 := by
    intro v hv
    have h : |v * v| ≤ 2 ^ (-150 : ℤ) := by
      rw [abs_mul]
      calc |v| * |v| ≤ 2 ^ (-75 : ℤ) * 2 ^ (-75 : ℤ) := by gcongr <;> exact h v hv
        _ = 2 ^ (-150 : ℤ) := by rw [← zpow_add₀ (by norm_num)]; norm_num
    rw [mul_fin (h.trans (by norm_num)), rnd_tiny h]
  have r0 : round 0 = fin 0 := round_rep Rep.zero
  have hs : sqrt (sum6 (fin x) (fin y) (fin z) (fin a) (fin b) (fin c)) = fin 0 := by
    rw [sum6, key x (by simp), key y (by simp), key z (by simp), key a (by simp), key b (by simp), key c (by simp)]
    simp only [add, add_zero, r0]
    rw [sqrt, if_neg (lt_irrefl 0), Real.sqrt_zero, r0]
  exact ⟨by
    rw [Position6D.normalize, show Position6D.norm ⟨fin x, fin y, fin z, fin a, fin b, fin c⟩ = fin 0 from hs,
      if_pos (show eq (fin 0) (fin 0) from rfl)], by
    rw [Velocity6D.normalize, show Velocity6D.norm ⟨fin x, fin y, fin z, fin a, fin b, fin c⟩ = fin 0 from hs,
      if_pos (show eq (fin 0) (fin 0) from rfl)]⟩

/-- A square, or a sum of squares: infinite, or finite and not negative. Not in /repo: used in the proofs. -/
def InfOrNonneg (a : F32) : Prop := a = pinf ∨ ∃ v, a = fin v ∧ 0 ≤ v

theorem infOrNonneg_round {v : ℝ} (h : 0 ≤ v) : InfOrNonneg (round v) := by
  have h0 : 0 ≤ rnd v := by
    have := rnd_mono h
    rwa [rnd_zero] at this
  rw [round]
  split_ifs with h1 h2
  · exact .inl rfl
  · linarith [show (0 : ℝ) < 2 ^ 128 by positivity]
  · exact .inr ⟨_, rfl, h0⟩

theorem infOrNonneg_add {a b : F32} (ha : InfOrNonneg a) (hb : InfOrNonneg b) :
    InfOrNonneg (add a b) ∧ (a = pinf ∨ b = pinf → add a b = pinf) := by
  rcases ha with rfl | ⟨v, rfl, hv⟩ <;> rcases hb with rfl | ⟨w, rfl, hw⟩
  · exact ⟨.inl rfl, fun _ => rfl⟩
  · exact ⟨.inl rfl, fun _ => rfl⟩
  · exact ⟨.inl rfl, fun _ => rfl⟩
  · exact ⟨infOrNonneg_round (add_nonneg hv hw), by simp⟩

/-- Six finite components of which one is huge are normalised to 0, without an exception: the norm overflows to
infinity. -/
theorem C113_overflow (x y z a b c : ℝ) (h : ∃ v ∈ [x, y, z, a, b, c], 2 ^ 64 ≤ |v|) :
    Position6D.normalize ⟨fin x, fin y, fin z, fin a, fin b, fin c⟩ = .ok ⟨fin 0, fin 0, fin 0, fin 0, fin 0, fin 0⟩ ∧
    Velocity6D.normalize ⟨fin x, fin y, fin z, fin a, fin b, fin c⟩ = .ok ⟨fin 0, fin 0, fin 0, fin 0, fin 0, fin 0⟩ := by
  have big : ∀ {v : ℝ}, 2 ^ 64 ≤ |v| → mul (fin v) (fin v) = pinf := by
    intro v hv
    refine round_pinf ?_
    rw [← abs_mul_abs_self]
    calc (2 : ℝ) ^ 128 = 2 ^ 64 * 2 ^ 64 := by norm_num
      _ ≤ _ := by gcongr
  have sq : ∀ v : ℝ, InfOrNonneg (mul (fin v) (fin v)) := fun v => infOrNonneg_round (mul_self_nonneg v)
  have s2 := infOrNonneg_add (sq x) (sq y)
  have s3 := infOrNonneg_add s2.1 (sq z)
  have s4 := infOrNonneg_add s3.1 (sq a)
  have s5 := infOrNonneg_add s4.1 (sq b)
  have s6 := infOrNonneg_add s5.1 (sq c)
  have hs : sum6 (fin x) (fin y) (fin z) (fin a) (fin b) (fin c) = pinf := by
    obtain ⟨v, hv, h⟩ := h
    simp only [List.mem_cons, List.not_mem_nil, or_false] at hv
    rcases hv with rfl | rfl | rfl | rfl | rfl | rfl
    · exact s6.2 (.inl (s5.2 (.inl (s4.2 (.inl (s3.2 (.inl (s2.2 (.inl (big h))))))))))
    · exact s6.2 (.inl (s5.2 (.inl (s4.2 (.inl (s3.2 (.inl (s2.2 (.inr (big h))))))))))
    · exact s6.2 (.inl (s5.2 (.inl (s4.2 (.inl (s3.2 (.inr (big h))))))))
    · exact s6.2 (.inl (s5.2 (.inl (s4.2 (.inr (big h))))))
    · exact s6.2 (.inl (s5.2 (.inr (big h))))
    · exact s6.2 (.inr (big h))
  have hn : sqrt (sum6 (fin x) (fin y) (fin z) (fin a) (fin b) (fin c)) = pinf := by rw [hs, sqrt]
  have hne : ¬ eq pinf (fin 0) := fun h => h
  have r0 : round 0 = fin 0 := round_rep Rep.zero
  constructor
  · rw [Position6D.normalize, show Position6D.norm ⟨fin x, fin y, fin z, fin a, fin b, fin c⟩ = pinf from hn, if_neg hne,
      Position6D.div, if_neg hne, Position6D.smul]
    simp only [div, mul, mul_zero, r0]
  · rw [Velocity6D.normalize, show Velocity6D.norm ⟨fin x, fin y, fin z, fin a, fin b, fin c⟩ = pinf from hn, if_neg hne,
      Velocity6D.div, if_neg hne, Velocity6D.smul]
    simp only [div, mul, mul_zero, r0]

/-- The length of a vector whose components are relatively accurate, without underflow. -/
theorem len_sub_err {x y z p q r : ℝ} (hx : |p - x| ≤ 2 ^ (-24 : ℤ) * |x|) (hy : |q - y| ≤ 2 ^ (-24 : ℤ) * |y|)
    (hz : |r - z| ≤ 2 ^ (-24 : ℤ) * |z|) : |len p q r - len x y z| ≤ 2 ^ (-24 : ℤ) * len x y z := by
  have hs := len_sq x y z
  have hs' := len_sq p q r
  have h0 := len_nonneg x y z
  have h0' := len_nonneg p q r
  rw [two_neg24] at *
  have key : ∀ {p x : ℝ}, |p - x| ≤ 1 / 16777216 * |x| → p ^ 2 ≤ (1 + 1 / 16777216) ^ 2 * x ^ 2 ∧
      (1 - 1 / 16777216) ^ 2 * x ^ 2 ≤ p ^ 2 := by
    intro p x h
    have h1 := abs_sub_abs_le_abs_sub p x
    have h2 := abs_sub_abs_le_abs_sub x p
    rw [abs_sub_comm x p] at h2
    have hx := abs_nonneg x
    have hp := abs_nonneg p
    rw [← sq_abs p, ← sq_abs x, ← mul_pow, ← mul_pow]
    constructor
    · exact pow_le_pow_left₀ hp (by linarith) 2
    · exact pow_le_pow_left₀ (mul_nonneg (by norm_num) hx) (by linarith) 2
  obtain ⟨x1, x2⟩ := key hx
  obtain ⟨y1, y2⟩ := key hy
  obtain ⟨z1, z2⟩ := key hz
  have u : len p q r ≤ (1 + 1 / 16777216) * len x y z := by
    refine le_of_sq_le_sq ?_ (by positivity)
    rw [mul_pow, hs, hs']
    linarith
  have l : (1 - 1 / 16777216) * len x y z ≤ len p q r := by
    refine le_of_sq_le_sq ?_ h0'
    rw [mul_pow, hs, hs']
    linarith
  rw [abs_le]
  constructor <;> linarith

/-- The distance of two positions is the one of their translations, up to rounding, whatever their angles are. -/
theorem C113_distance (x y z x' y' z' : ℝ) (a b c a' b' c' : F32) (hx : Rep x) (hy : Rep y) (hz : Rep z)
    (hx' : Rep x') (hy' : Rep y') (hz' : Rep z')
    (hl : 2 ^ (-59 : ℤ) ≤ len (x - x') (y - y') (z - z')) (hu : len (x - x') (y - y') (z - z') ≤ 2 ^ 61) :
    ∃ d, Position6D.distance ⟨fin x, fin y, fin z, a, b, c⟩ ⟨fin x', fin y', fin z', a', b', c'⟩ = fin d ∧ Rep d ∧
      |d - len (x - x') (y - y') (z - z')| ≤ 2 ^ (-19 : ℤ) * len (x - x') (y - y') (z - z') := by
  have sb : ∀ {u v : ℝ}, Rep u → Rep v → |u - v| ≤ len (x - x') (y - y') (z - z') →
      sub (fin u) (fin v) = fin (rnd (u - v)) ∧ |rnd (u - v) - (u - v)| ≤ 2 ^ (-24 : ℤ) * |u - v| := by
    intro u v hu' hv h
    refine ⟨sub_fin (h.trans (hu.trans (by norm_num))), ?_⟩
    have := rnd_add hu'.grid hv.neg.grid
    rwa [← sub_eq_add_neg] at this
  obtain ⟨bx, b_y, bz⟩ := abs_le_len (x - x') (y - y') (z - z')
  obtain ⟨x1, x2⟩ := sb hx hx' bx
  obtain ⟨y1, y2⟩ := sb hy hy' b_y
  obtain ⟨z1, z2⟩ := sb hz hz' bz
  have e := len_sub_err x2 y2 z2
  obtain ⟨e1, e2⟩ := abs_le.1 e
  generalize hL : len (x - x') (y - y') (z - z') = L at *
  have hLp : 0 < L := lt_of_lt_of_le (two_zpow_pos _) hl
  rw [two_neg24] at *
  obtain ⟨d, hd, hr, he⟩ := C77_norm (rnd (x - x')) (rnd (y - y')) (rnd (z - z'))
    (by
      have : (2 : ℝ) ^ (-60 : ℤ) = 2 ^ (-59 : ℤ) / 2 := by norm_num
      rw [this]
      generalize (2 : ℝ) ^ (-59 : ℤ) = b1 at *
      linarith)
    (by
      have : (2 : ℝ) ^ 62 = 2 ^ 61 + 2 ^ 61 := by norm_num
      rw [this]
      generalize (2 : ℝ) ^ 61 = b1 at *
      linarith)
  refine ⟨d, ?_, hr, ?_⟩
  · rw [Position6D.distance, Position6D.distanceSquared]
    dsimp only
    rw [x1, y1, z1]
    exact hd
  · have q := abs_add_le (d - len (rnd (x - x')) (rnd (y - y')) (rnd (z - z')))
      (len (rnd (x - x')) (rnd (y - y')) (rnd (z - z')) - L)
    rw [sub_add_sub_cancel] at q
    rw [show (2 : ℝ) ^ (-20 : ℤ) = 16 * (1 / 16777216) by norm_num] at he
    rw [show (2 : ℝ) ^ (-19 : ℤ) = 32 * (1 / 16777216) by norm_num]
    linarith

/-- Two positions that differ only in their angles are at distance 0, whatever the angles are, even NaN. -/
theorem C113_distance_angles (x y z : ℝ) (a b c a' b' c' : F32) :
    Position6D.distance ⟨fin x, fin y, fin z, a, b, c⟩ ⟨fin x, fin y, fin z, a', b', c'⟩ = fin 0 := by
  have r0 : round 0 = fin 0 := round_rep Rep.zero
  have s0 : ∀ v : ℝ, sub (fin v) (fin v) = fin 0 := by
    intro v
    rw [sub, neg, add, add_neg_cancel, r0]
  rw [Position6D.distance, Position6D.distanceSquared]
  dsimp only
  rw [s0, s0, s0, dot]
  simp only [mul, add, mul_zero, add_zero, r0]
  rw [sqrt, if_neg (lt_irrefl 0), Real.sqrt_zero, r0]

/-! ### Examples -/

example : 2 ^ (-60 : ℤ) ≤ len6 1 2 2 4 0 0 ∧ len6 1 2 2 4 0 0 ≤ 2 ^ 62 := by
  have : len6 1 2 2 4 0 0 = 5 := by
    rw [len6, show (1 : ℝ) ^ 2 + 2 ^ 2 + 2 ^ 2 + 4 ^ 2 + 0 ^ 2 + 0 ^ 2 = 5 ^ 2 by norm_num]
    exact Real.sqrt_sq (by norm_num)
  rw [this]
  norm_num

/-- Non-zero components of the format that are not normalised. -/
example : Rep (2 ^ (-80 : ℤ)) ∧ Velocity6D.normalize ⟨fin 0, fin 0, fin 0, fin (2 ^ (-80 : ℤ)), fin 0, fin 0⟩ = .throws := by
  refine ⟨Rep.two_zpow (by norm_num) (by norm_num), (C113_underflow _ _ _ _ _ _ ?_).2⟩
  have : (2 : ℝ) ^ (-80 : ℤ) ≤ 2 ^ (-75 : ℤ) := two_zpow_le (by norm_num)
  have h0 : (0 : ℝ) ≤ 2 ^ (-75 : ℤ) := (two_zpow_pos _).le
  have h1 : |(2 : ℝ) ^ (-80 : ℤ)| = 2 ^ (-80 : ℤ) := abs_of_pos (two_zpow_pos _)
  intro v hv
  simp only [List.mem_cons, List.not_mem_nil, or_false] at hv
  rcases hv with rfl | rfl | rfl | rfl | rfl | rfl <;> first | (rw [abs_zero]; exact h0) | (rw [h1]; exact this)

/-- Finite components of the format that are normalised to 0. -/
example : Rep (2 ^ (70 : ℤ)) ∧ Position6D.normalize ⟨fin 1, fin 0, fin 0, fin 0, fin (2 ^ (70 : ℤ)), fin 0⟩ =
    .ok ⟨fin 0, fin 0, fin 0, fin 0, fin 0, fin 0⟩ := by
  refine ⟨Rep.two_zpow (by norm_num) (by norm_num), (C113_overflow _ _ _ _ _ _ ⟨2 ^ (70 : ℤ), by simp, ?_⟩).1⟩
  rw [abs_of_pos (two_zpow_pos _)]
  norm_num

/-- Two points of the format at distance 5. -/
example : Rep 4 ∧ Rep 8 ∧ Rep 5 ∧ Rep 0 ∧ len (4 - 0) (8 - (5 : ℝ)) (0 - 0) = 5 ∧ (2 : ℝ) ^ (-59 : ℤ) ≤ 5 ∧
    (5 : ℝ) ≤ 2 ^ 61 := by
  refine ⟨⟨4, 0, by norm_num, by norm_num, by norm_num, by norm_num⟩, ⟨8, 0, by norm_num, by norm_num, by norm_num, by norm_num⟩,
    ⟨5, 0, by norm_num, by norm_num, by norm_num, by norm_num⟩, Rep.zero, ?_, by norm_num, by norm_num⟩
  rw [len, show ((4 : ℝ) - 0) ^ 2 + (8 - 5) ^ 2 + (0 - 0) ^ 2 = 5 ^ 2 by norm_num]
  exact Real.sqrt_sq (by norm_num)

end AlMath.F32
