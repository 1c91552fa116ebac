import Verif.Lemmas.MeshWinding
import Mathlib.Analysis.Real.Pi.Bounds
import Mathlib.Analysis.SpecialFunctions.Trigonometric.Bounds

/-!
C44: the rounded box mesh.
-/

namespace AlMath

namespace Spec

/-- Square of the distance from `p` to the box with half-extents `hx`, `hy`, `hz`. Not in /repo:
specification. -/
noncomputable def boxDistSq (hx hy hz : ℝ) (p : ℝ × ℝ × ℝ) : ℝ :=
  max 0 (|p.1| - hx) ^ 2 + max 0 (|p.2.1| - hy) ^ 2 + max 0 (|p.2.2| - hz) ^ 2

/-- The vertex at `p` with normal `n` is on the sphere of radius `r` around a corner of the box
with half-extents `hx`, `hy`, `hz`, its normal is the unit vector from that corner, and its
distance to the box is the radius, or less than a millionth less. Not in /repo: specification. -/
def OnRoundedBox (hx hy hz r : ℝ) (p n : ℝ × ℝ × ℝ) : Prop :=
  (∃ cx cy cz, (cx = hx ∨ cx = -hx) ∧ (cy = hy ∨ cy = -hy) ∧ (cz = hz ∨ cz = -hz) ∧
    dot3 n n = 1 ∧ sub3 p (cx, cy, cz) = smul3 r n) ∧
  (1 - 0.000001) * r ^ 2 ≤ boxDistSq hx hy hz p ∧ boxDistSq hx hy hz p ≤ r ^ 2

end Spec

open Spec

/-! ### Loops -/

theorem Does.foldlM_range' {σ : Type} {m : Mesh} (f : σ → ℕ → MeshM σ)
    (I : ℕ → σ → Delta → Prop) (k a : ℕ)
    (hs : ∀ i s D, a ≤ i → i < a + k → I i s D → ∃ s' D', Does m (f s i) D s' D' ∧ I (i + 1) s' D')
    (s : σ) (D : Delta) (h0 : I a s D) :
    ∃ s' D', Does m ((List.range' a k).foldlM f s) D s' D' ∧ I (a + k) s' D' := by
  induction k generalizing a s D with
  | zero => exact ⟨s, D, Does.pure s D, h0⟩
  | succ k ih =>
    obtain ⟨s1, D1, hd, h1⟩ := hs a s D le_rfl (by omega) h0
    obtain ⟨s2, D2, hd2, h2⟩ := ih (a + 1) (fun i s D ha hi => hs i s D (by omega) (by omega)) s1 D1 h1
    refine ⟨s2, D2, ?_, by rwa [show a + (k + 1) = a + 1 + k by ring]⟩
    rw [List.range'_succ]
    exact hd.bind hd2

theorem Does.foldlM_range {σ : Type} {m : Mesh} (f : σ → ℕ → MeshM σ)
    (I : ℕ → σ → Delta → Prop) (k : ℕ)
    (hs : ∀ i s D, i < k → I i s D → ∃ s' D', Does m (f s i) D s' D' ∧ I (i + 1) s' D')
    (s : σ) (D : Delta) (h0 : I 0 s D) :
    ∃ s' D', Does m ((List.range k).foldlM f s) D s' D' ∧ I k s' D' := by
  rw [List.range_eq_range']
  have := Does.foldlM_range' f I k 0 (fun i s D _ hi => hs i s D (by omega)) s D h0
  rwa [Nat.zero_add] at this

theorem Does.forM_list {β : Type} {m : Mesh} (f : β → MeshM Unit) (g : β → Delta → Delta)
    (Q : Delta → Prop)
    (l : List β) (hs : ∀ b ∈ l, ∀ D, Q D → Does m (f b) D () (g b D) ∧ Q (g b D))
    (D : Delta) (hQ : Q D) :
    Does m (l.forM f) D () (l.foldl (fun D b => g b D) D) ∧ Q (l.foldl (fun D b => g b D) D) := by
  induction l generalizing D with
  | nil => exact ⟨Does.pure () D, hQ⟩
  | cons b l ih =>
    obtain ⟨h1, h2⟩ := hs b (by simp) D hQ
    obtain ⟨h3, h4⟩ := ih (fun c hc => hs c (by simp [hc])) (g b D) h2
    exact ⟨h1.bind h3, h4⟩

/-! ### Meridians -/

variable {m : Mesh} {recs : List Vtx} {hx hy hz r : ℝ}

/-- `c` is the end, positive or negative, of the interval of half-length `h`, and `n` points out
of it, up to `d`. Helper of the proofs. Not in /repo: specification. -/
def Side (h c n d : ℝ) : Prop := (c = h ∧ -d ≤ n) ∨ (c = -h ∧ n ≤ d)

theorem Side.eq {h c n d : ℝ} (hs : Side h c n d) : c = h ∨ c = -h := by
  rcases hs with h | h
  · exact Or.inl h.1
  · exact Or.inr h.1

theorem Side.mul {h c n d : ℝ} (hs : Side h c n d) (hd : 0 ≤ d) {s : ℝ} (h0 : 0 ≤ s) (h1 : s ≤ 1) :
    Side h c (s * n) d := by
  rcases hs with ⟨e, hn⟩ | ⟨e, hn⟩
  · exact Or.inl ⟨e, by nlinarith⟩
  · exact Or.inr ⟨e, by nlinarith⟩

theorem Side.gap {h c n d : ℝ} (hs : Side h c n d) (hh : 0 ≤ h) (hr : 0 < r) (hd : 0 ≤ d) :
    r ^ 2 * n ^ 2 - r ^ 2 * d ^ 2 ≤ max 0 (|c + r * n| - h) ^ 2 ∧
      max 0 (|c + r * n| - h) ^ 2 ≤ r ^ 2 * n ^ 2 := by
  have hc : |c| = h := by
    rcases hs.eq with e | e <;> rw [e]
    · exact abs_of_nonneg hh
    · rw [abs_neg, abs_of_nonneg hh]
  have hup : max 0 (|c + r * n| - h) ≤ |r * n| := by
    apply max_le (abs_nonneg _)
    have := abs_add_le c (r * n)
    linarith
  constructor
  · by_cases hin : n ^ 2 ≤ d ^ 2
    · have : r ^ 2 * n ^ 2 ≤ r ^ 2 * d ^ 2 := by gcongr
      nlinarith [sq_nonneg (max 0 (|c + r * n| - h))]
    · have hlo : r * |n| ≤ max 0 (|c + r * n| - h) := by
        apply le_max_of_le_right
        have hdn : d < |n| := by
          by_contra hcon
          push Not at hcon
          apply hin
          rw [← sq_abs n]
          gcongr
        rcases hs with ⟨e, hn⟩ | ⟨e, hn⟩
        · have hn0 : 0 ≤ n := by
            by_contra hcon
            push Not at hcon
            rw [abs_of_neg hcon] at hdn
            linarith
          rw [e, abs_of_nonneg hn0, abs_of_nonneg (by positivity)]
          linarith
        · have hn0 : n ≤ 0 := by
            by_contra hcon
            push Not at hcon
            rw [abs_of_pos hcon] at hdn
            linarith
          have : r * n ≤ 0 := mul_nonpos_of_nonneg_of_nonpos hr.le hn0
          rw [e, abs_of_nonpos hn0, abs_of_nonpos (by linarith)]
          linarith
      calc r ^ 2 * n ^ 2 - r ^ 2 * d ^ 2 ≤ r ^ 2 * n ^ 2 := by
            have : 0 ≤ r ^ 2 * d ^ 2 := by positivity
            linarith
        _ = (r * |n|) ^ 2 := by rw [mul_pow, sq_abs]
        _ ≤ _ := by gcongr
  · calc max 0 (|c + r * n| - h) ^ 2 ≤ |r * n| ^ 2 := by gcongr
      _ = r ^ 2 * n ^ 2 := by rw [sq_abs, mul_pow]

/-- The extents and the radius that the rounded box accepts. Helper of the proofs. Not in /repo:
specification. -/
structure Ext (hx hy hz r : ℝ) : Prop where
  x : 0 ≤ hx
  y : 0 ≤ hy
  z : 0 ≤ hz
  r : 0 < r

theorem onRoundedBox_of_sides (hE : Ext hx hy hz r)
    {x y z n1 n2 n3 : ℝ} (hX : Side hx x n1 0.00001) (hY : Side hy y n2 0.00001)
    (hZ : Side hz z n3 0.0008) (hu : n1 * n1 + n2 * n2 + n3 * n3 = 1) :
    OnRoundedBox hx hy hz r (x + r * n1, y + r * n2, z + r * n3) (n1, n2, n3) := by
  have a := hX.gap hE.x hE.r (by norm_num)
  have b := hY.gap hE.y hE.r (by norm_num)
  have c := hZ.gap hE.z hE.r (by norm_num)
  have hs : r ^ 2 * n1 ^ 2 + r ^ 2 * n2 ^ 2 + r ^ 2 * n3 ^ 2 = r ^ 2 := by
    linear_combination r ^ 2 * hu
  refine ⟨⟨x, y, z, hX.eq, hY.eq, hZ.eq, hu, ?_⟩, ?_, ?_⟩
  · simp only [sub3, smul3, Prod.mk.injEq]
    refine ⟨by ring, by ring, by ring⟩
  · have : 0 ≤ r ^ 2 := sq_nonneg r
    simp only [boxDistSq]
    nlinarith [a.1, b.1, c.1]
  · simp only [boxDistSq]
    linarith [a.2, b.2, c.2]

theorem onRoundedBox_polar (hE : Ext hx hy hz r) {x y z phi lam : ℝ}
    (hX : Side hx x (Real.cos lam) 0.00001) (hY : Side hy y (Real.sin lam) 0.00001)
    (hZ : Side hz z (Real.cos phi) 0.0008) (hphi : 0 ≤ Real.sin phi) :
    OnRoundedBox hx hy hz r
      (x + r * Real.sin phi * Real.cos lam, y + r * Real.sin phi * Real.sin lam,
        z + r * Real.cos phi)
      (Real.sin phi * Real.cos lam, Real.sin phi * Real.sin lam, Real.cos phi) := by
  rw [mul_assoc r, mul_assoc r]
  refine onRoundedBox_of_sides hE (hX.mul (by norm_num) hphi (Real.sin_le_one _))
    (hY.mul (by norm_num) hphi (Real.sin_le_one _)) hZ ?_
  linear_combination Real.sin_sq_add_cos_sq phi +
      Real.sin phi ^ 2 * Real.sin_sq_add_cos_sq lam

theorem polar_unit (phi lam : ℝ) :
    Real.sin phi * Real.cos lam * (Real.sin phi * Real.cos lam) +
      Real.sin phi * Real.sin lam * (Real.sin phi * Real.sin lam) +
      Real.cos phi * Real.cos phi = 1 := by
  linear_combination Real.sin_sq_add_cos_sq phi +
      Real.sin phi ^ 2 * Real.sin_sq_add_cos_sq lam

/-- The additions `D` with more positions and normals. Not in /repo: specification. -/
def Delta.points (D : Delta) (P N : List (ℝ × ℝ × ℝ)) : Delta :=
  { D with P := D.P ++ P, N := D.N ++ N }

theorem Delta.points_points (D : Delta) (P N P' N' : List (ℝ × ℝ × ℝ)) :
    (D.points P N).points P' N' = D.points (P ++ P') (N ++ N') := by
  simp [Delta.points]

theorem does_normal (hb : Base m recs) (D : Delta) (n : ℝ × ℝ × ℝ)
    (hu : n.1 * n.1 + n.2.1 * n.2.1 + n.2.2 * n.2.2 = 1) :
    Does m (Mesh.normal n.1 n.2.1 n.2.2) D (m.normalsNb + D.N.length) (D.points [] [n]) := by
  have := Does.normal hb D _ _ _ hu
  unfold Delta.points
  rw [List.append_nil]
  exact this

theorem does_position (hb : Base m recs) (D : Delta) (p : ℝ × ℝ × ℝ) :
    Does m (Mesh.position p.1 p.2.1 p.2.2) D (m.positionsNb + D.P.length) (D.points [p] []) := by
  have := Does.position hb D p.1 p.2.1 p.2.2
  unfold Delta.points
  rw [List.append_nil]
  exact this

theorem does_meridianStep (hb : Base m recs) (hE : Ext hx hy hz r) {x y lam : ℝ}
    (hX : Side hx x (Real.cos lam) 0.00001) (hY : Side hy y (Real.sin lam) 0.00001) (nphi : ℤ)
    (iphi : ℤ) (D : Delta) (z : ℝ) (hsin : 0 ≤ Real.sin (iphi * (3.14 / nphi)))
    (hZ : Side hz z (Real.cos (iphi * (3.14 / nphi))) 0.0008)
    (hZ' : iphi % (nphi / 2) = 0 → Side hz (-hz) (Real.cos (iphi * (3.14 / nphi))) 0.0008) :
    ∃ z' P N, Does m (xAddMeridianStep hz r nphi x y lam z iphi) D z' (D.points P N) ∧
      List.Forall₂ (OnRoundedBox hx hy hz r) P N ∧
      (iphi % (nphi / 2) = 0 ∧ hz ≠ 0 → z' = -hz ∧ P.length = 2 ∧
        (x + r * Real.sin (iphi * (3.14 / nphi)) * Real.cos lam,
          y + r * Real.sin (iphi * (3.14 / nphi)) * Real.sin lam,
          -hz + r * Real.cos (iphi * (3.14 / nphi))) ∈ P) ∧
      (¬ (iphi % (nphi / 2) = 0 ∧ hz ≠ 0) → z' = z ∧ P.length = 1) ∧
      ∀ t < P.length, P[t]? = some (polarPoint r x y lam (Real.sin (iphi * (3.14 / nphi)))
          (Real.cos (iphi * (3.14 / nphi))) (if t = 0 then z else -hz)) ∧
        N[t]? = some (polarNormal lam (Real.sin (iphi * (3.14 / nphi)))
          (Real.cos (iphi * (3.14 / nphi)))) := by
  set phi : ℝ := iphi * (3.14 / nphi) with hphi
  set nn : ℝ × ℝ × ℝ := (Real.sin phi * Real.cos lam, Real.sin phi * Real.sin lam, Real.cos phi)
    with hnn
  set pp : ℝ → ℝ × ℝ × ℝ := fun z => (x + r * Real.sin phi * Real.cos lam,
    y + r * Real.sin phi * Real.sin lam, z + r * Real.cos phi) with hpp
  have h1 := fun D => does_normal hb D nn (polar_unit phi lam)
  have h2 := fun D z => does_position hb D (pp z)
  have good : ∀ z, Side hz z (Real.cos phi) 0.0008 → OnRoundedBox hx hy hz r (pp z) nn :=
    fun z hZ => onRoundedBox_polar hE hX hY hZ hsin
  by_cases hc : iphi % (nphi / 2) = 0 ∧ hz ≠ 0
  · refine ⟨-hz, [pp z, pp (-hz)], [nn, nn], ?_,
      .cons (good z hZ) (.cons (good (-hz) (hZ' hc.1)) .nil), fun _ => ⟨rfl, rfl, by simp [hpp]⟩,
      fun h => absurd hc h, fun t ht => by
        have ht : t < 2 := ht
        rcases (show t = 0 ∨ t = 1 by omega) with rfl | rfl
        · exact ⟨rfl, rfl⟩
        · exact ⟨rfl, rfl⟩⟩
    have := (h1 D).bind (f := fun _ => _) ((h2 _ z).bind (f := fun _ => _)
      ((h1 _).bind (f := fun _ => _) ((h2 _ (-hz)).bind (f := fun _ => _) (Does.pure (-hz) _))))
    unfold xAddMeridianStep
    simp only [if_pos hc, ← hphi]
    simp only [Delta.points_points] at this
    exact this
  · refine ⟨z, [pp z], [nn], ?_, .cons (good z hZ) .nil, fun h => absurd h hc, fun _ => ⟨rfl, rfl⟩,
      fun t ht => by
        have ht : t < 1 := ht
        obtain rfl : t = 0 := by omega
        exact ⟨rfl, rfl⟩⟩
    have := (h1 D).bind (f := fun _ => _) ((h2 _ z).bind (f := fun _ => _) (Does.pure z _))
    unfold xAddMeridianStep
    simp only [if_neg hc, ← hphi]
    simp only [Delta.points_points] at this
    exact this

/-- The lower of the two vertices that the meridian puts at its equator is strictly inside. -/
theorem equator_inside (hE : Ext hx hy hz r) (hz0 : hz ≠ 0) {x y : ℝ} (hX : x = hx ∨ x = -hx)
    (hY : y = hy ∨ y = -hy) (lam : ℝ) :
    boxDistSq hx hy hz (x + r * Real.sin 1.57 * Real.cos lam, y + r * Real.sin 1.57 * Real.sin lam,
      -hz + r * Real.cos 1.57) < r ^ 2 := by
  have hx' := hE.x
  have hy' := hE.y
  have hz' : 0 < hz := lt_of_le_of_ne hE.z (Ne.symm hz0)
  have hr := hE.r
  have hc : 0 < Real.cos 1.57 := by
    apply Real.cos_pos_of_mem_Ioo
    have := Real.pi_gt_d4
    constructor <;> linarith
  have hg : ∀ {c h n : ℝ}, 0 ≤ h → (c = h ∨ c = -h) → max 0 (|c + n| - h) ^ 2 ≤ n ^ 2 := by
    intro c h n hh hc
    have : |c| = h := by
      rcases hc with e | e <;> rw [e]
      · exact abs_of_nonneg hh
      · rw [abs_neg, abs_of_nonneg hh]
    have h2 : max 0 (|c + n| - h) ≤ |n| := by
      apply max_le (abs_nonneg _)
      have := abs_add_le c n
      linarith
    rw [← sq_abs n]
    gcongr
  have g1 := hg (n := r * Real.sin 1.57 * Real.cos lam) hx' hX
  have g2 := hg (n := r * Real.sin 1.57 * Real.sin lam) hy' hY
  have g3 : max 0 (|-hz + r * Real.cos 1.57| - hz) ^ 2 < (r * Real.cos 1.57) ^ 2 := by
    have hrc : 0 < r * Real.cos 1.57 := by positivity
    apply pow_lt_pow_left₀ _ (le_max_left _ _) two_ne_zero
    apply max_lt hrc
    rw [sub_lt_iff_lt_add, abs_lt]
    constructor <;> linarith
  simp only [boxDistSq]
  have : (r * Real.sin 1.57 * Real.cos lam) ^ 2 + (r * Real.sin 1.57 * Real.sin lam) ^ 2 +
      (r * Real.cos 1.57) ^ 2 = r ^ 2 := by
    linear_combination r ^ 2 * Real.sin_sq_add_cos_sq 1.57 +
      r ^ 2 * Real.sin 1.57 ^ 2 * Real.sin_sq_add_cos_sq lam
  linarith

/-- The polar angles of a meridian: positive sine, and on the right side of the equator up to the
error of `3.14`. -/
theorem polar_side (nb i : ℕ) (hi : i < 2 * nb + 1) :
    0 ≤ Real.sin (((i : ℤ) + 1 : ℤ) * (3.14 / ((2 * ((nb : ℤ) + 1) : ℤ) : ℝ))) ∧
    (i ≤ nb → 0 ≤ Real.cos (((i : ℤ) + 1 : ℤ) * (3.14 / ((2 * ((nb : ℤ) + 1) : ℤ) : ℝ)))) ∧
    (nb ≤ i → Real.cos (((i : ℤ) + 1 : ℤ) * (3.14 / ((2 * ((nb : ℤ) + 1) : ℤ) : ℝ))) ≤ 0.0008) := by
  have hn : (0 : ℝ) < nb + 1 := by positivity
  have e : (((i : ℤ) + 1 : ℤ) : ℝ) * (3.14 / ((2 * ((nb : ℤ) + 1) : ℤ) : ℝ)) =
      1.57 * ((i + 1) / (nb + 1)) := by
    push_cast
    field_simp
    norm_num
  have h1 := Real.pi_gt_d4
  rw [e]
  have hq0 : (0 : ℝ) ≤ (i + 1) / (nb + 1) := by positivity
  have hq2 : ((i : ℝ) + 1) / (nb + 1) ≤ 2 := by
    rw [div_le_iff₀ hn]
    have : (i : ℝ) + 1 ≤ 2 * nb + 1 := by exact_mod_cast (by omega : i + 1 ≤ 2 * nb + 1)
    linarith
  refine ⟨Real.sin_nonneg_of_nonneg_of_le_pi (by positivity) (by linarith), fun h => ?_, fun h => ?_⟩
  · have : ((i : ℝ) + 1) / (nb + 1) ≤ 1 := by
      rw [div_le_iff₀ hn]
      have : (i : ℝ) ≤ nb := by exact_mod_cast h
      linarith
    exact Real.cos_nonneg_of_neg_pi_div_two_le_of_le (by linarith) (by linarith)
  · have : 1 ≤ ((i : ℝ) + 1) / (nb + 1) := by
      rw [le_div_iff₀ hn]
      have : (nb : ℝ) ≤ i := by exact_mod_cast h
      linarith
    refine le_trans (Real.cos_le_cos_of_nonneg_of_le_pi (x := 1.57) (by norm_num) (by linarith)
      (by linarith)) cos_157.2

theorem does_meridian (hb : Base m recs) (hE : Ext hx hy hz r) {x y lam : ℝ}
    (hX : Side hx x (Real.cos lam) 0.00001) (hY : Side hy y (Real.sin lam) 0.00001)
    (nb : ℕ) (D : Delta) :
    ∃ P N, Does m (xAddMeridian hz r nb x y lam) D
        ⟨m.positionsNb + D.P.length, m.normalsNb + D.N.length⟩ (D.points P N) ∧
      List.Forall₂ (OnRoundedBox hx hy hz r) P N ∧ P.length = meridianSize hz nb ∧
      (hz ≠ 0 → ∃ p ∈ P, boxDistSq hx hy hz p < r ^ 2) ∧
      ∀ t < P.length, P[t]? = some (polarPoint r x y lam (Real.sin (merPhi hz nb t))
          (Real.cos (merPhi hz nb t)) (merZ hz nb t)) ∧
        N[t]? = some (polarNormal lam (Real.sin (merPhi hz nb t))
          (Real.cos (merPhi hz nb t))) := by
  classical
  have hn : (2 * ((nb : ℤ) + 1) - 1).toNat = 2 * nb + 1 := by omega
  have hmid : (2 * ((nb : ℤ) + 1)) / 2 = nb + 1 := by omega
  obtain ⟨z', D', hd, -, P, N, rfl, hP, hlen, hin, hex⟩ := Does.foldlM_range (m := m)
    (fun z i => xAddMeridianStep hz r (2 * ((nb : ℤ) + 1)) x y lam z (i + 1))
    (fun i z D' => (z = if nb + 1 ≤ i then -hz else hz) ∧ ∃ P N, D' = D.points P N ∧
      List.Forall₂ (OnRoundedBox hx hy hz r) P N ∧
      (P.length = i + if hz ≠ 0 ∧ nb + 1 ≤ i then 1 else 0) ∧
      (hz ≠ 0 → nb + 1 ≤ i → ∃ p ∈ P, boxDistSq hx hy hz p < r ^ 2) ∧
      ∀ t < P.length, P[t]? = some (polarPoint r x y lam (Real.sin (merPhi hz nb t))
          (Real.cos (merPhi hz nb t)) (merZ hz nb t)) ∧
        N[t]? = some (polarNormal lam (Real.sin (merPhi hz nb t))
          (Real.cos (merPhi hz nb t)))) (2 * nb + 1)
    (by
      rintro i z D' hi ⟨hZ, P, N, rfl, hP, hl, hin, hex⟩
      have hmod : ((i : ℤ) + 1) % (nb + 1) = 0 ↔ i = nb := by
        constructor
        · intro h
          have h2 : (i + 1) % (nb + 1) = 0 := by exact_mod_cast h
          obtain ⟨c, hc⟩ := Nat.dvd_of_mod_eq_zero h2
          have : c < 2 := by
            by_contra hcon
            have : (nb + 1) * 2 ≤ (nb + 1) * c := Nat.mul_le_mul_left _ (by omega)
            omega
          have : c ≠ 0 := by rintro rfl; omega
          have : c = 1 := by omega
          subst this
          omega
        · rintro rfl; simp
      obtain ⟨p1, p2, p3⟩ := polar_side nb i hi
      obtain ⟨z', P', N', hd, hP', hl1, hl2, hex'⟩ :=
        does_meridianStep hb hE hX hY (2 * ((nb : ℤ) + 1)) (i + 1) (D.points P N) z p1
          (by
            rw [hZ]
            split_ifs with h
            · exact Or.inr ⟨rfl, p3 (by omega)⟩
            · exact Or.inl ⟨rfl, le_trans (by norm_num) (p2 (by omega))⟩)
          (by
            rw [hmid, hmod]
            intro h
            exact Or.inr ⟨rfl, p3 (by omega)⟩)
      rw [hmid, hmod] at hl1 hl2
      refine ⟨z', _, hd, ?_, P ++ P', N ++ N', ?_, List.rel_append hP hP', ?_, ?_, ?_⟩
      · by_cases hh : hz = 0
        · rw [(hl2 (by simp [hh])).1, hZ]
          simp [hh]
        · by_cases hi' : i = nb
          · rw [(hl1 ⟨hi', hh⟩).1]
            simp [hi']
          · rw [(hl2 (by simp [hi'])).1, hZ]
            split_ifs <;> first | rfl | omega
      · simp [Delta.points]
      · rw [List.length_append, hl]
        by_cases hh : hz = 0
        · rw [(hl2 (by simp [hh])).2]
          simp [hh]
        · by_cases hi' : i = nb
          · rw [(hl1 ⟨hi', hh⟩).2.1]
            simp [hh, hi']
          · rw [(hl2 (by simp [hi'])).2]
            simp only [ne_eq, hh, not_false_eq_true, true_and]
            split_ifs <;> omega
      · intro hh hi2
        by_cases hi' : i = nb
        · refine ⟨_, List.mem_append_right _ (hl1 ⟨hi', hh⟩).2.2, ?_⟩
          have e : (((i : ℤ) + 1 : ℤ) : ℝ) * (3.14 / ((2 * ((nb : ℤ) + 1) : ℤ) : ℝ)) = 1.57 := by
            have hn : (0 : ℝ) < nb + 1 := by positivity
            rw [hi']
            push_cast
            field_simp
            norm_num
          rw [e]
          exact equator_inside hE hh hX.eq hY.eq lam
        · obtain ⟨p, hp, h⟩ := hin hh (by omega)
          exact ⟨p, List.mem_append_left _ hp, h⟩
      · intro t ht
        have hPN := hP.length_eq
        by_cases htp : t < P.length
        · rw [List.getElem?_append_left htp, List.getElem?_append_left (hPN ▸ htp)]
          exact hex t htp
        · rw [List.getElem?_append_right (show P.length ≤ t by omega),
            List.getElem?_append_right (show N.length ≤ t by omega), ← hPN]
          rw [List.length_append] at ht
          obtain ⟨g1, g2⟩ := hex' (t - P.length) (by omega)
          have ang : (((i : ℤ) + 1 : ℤ) : ℝ) * (3.14 / ((2 * ((nb : ℤ) + 1) : ℤ) : ℝ)) =
              merPhi hz nb t := by
            unfold merPhi
            push_cast
            congr 1
            by_cases hh : hz = 0
            · have := (hl2 (by simp [hh])).2
              rw [if_neg (by simp [hh])] at hl
              rw [if_neg (by simp [hh]), show t = i by omega]
            · by_cases hi' : i = nb
              · have := (hl1 ⟨hi', hh⟩).2.1
                rw [if_neg (by omega)] at hl
                split_ifs with h
                · rw [show t = i + 1 by omega]; push_cast; ring
                · have : ¬ nb + 1 ≤ t := fun h' => h ⟨hh, h'⟩
                  rw [show t = i by omega]
              · have := (hl2 (by simp [hi'])).2
                by_cases h : nb + 1 ≤ i
                · rw [if_pos ⟨hh, h⟩] at hl
                  rw [if_pos ⟨hh, by omega⟩, show t = i + 1 by omega]
                  push_cast; ring
                · rw [if_neg (by omega)] at hl
                  rw [if_neg (by omega), show t = i by omega]
          have ez : (if t - P.length = 0 then z else -hz) = merZ hz nb t := by
            unfold merZ
            by_cases hh : hz = 0
            · rw [hZ]; simp [hh]
            · by_cases hi' : i = nb
              · have := (hl1 ⟨hi', hh⟩).2.1
                rw [if_neg (by omega)] at hl
                rw [hZ, if_neg (show ¬ nb + 1 ≤ i by omega)]
                split_ifs <;> first | rfl | omega
              · have := (hl2 (by simp [hi'])).2
                rw [if_pos (by omega), hZ]
                by_cases h : nb + 1 ≤ i
                · rw [if_pos ⟨hh, h⟩] at hl
                  rw [if_pos h, if_pos (by omega)]
                · rw [if_neg (by omega)] at hl
                  rw [if_neg h, if_neg (by omega)]
          rw [ang] at g1 g2
          rw [ez] at g1
          exact ⟨g1, g2⟩)
    hz D ⟨by simp, [], [], by simp [Delta.points], .nil, by simp, by simp, by simp⟩
  refine ⟨P, N, ?_, hP, ?_, fun h => hin h (by omega), hex⟩
  · unfold xAddMeridian
    refine Does.bind (a := ⟨m.positionsNb + D.P.length, m.normalsNb + D.N.length⟩) (D' := D)
      (Does.get _ _ _ fun cn => by rw [plus_positionsNb hb, plus_normalsNb hb]) ?_
    dsimp only
    rw [hn]
    exact hd.bind (Does.pure _ _)
  · rw [hlen]
    unfold meridianSize
    by_cases hh : hz = 0
    · rw [if_neg (by simp [hh]), if_pos hh]
    · rw [if_pos ⟨hh, by omega⟩, if_neg hh]

/-! ### Polygons -/

/-- The additions `D` with an open primitive. Not in /repo: specification. -/
def Delta.opn (D : Delta) (mode : MeshMode) (l : List Vert) : Delta :=
  { D with o := some (mode, l) }

/-- The additions `D` with more polygons. Not in /repo: specification. -/
def Delta.addF (D : Delta) (F : List (List Vert)) : Delta := { D with F := D.F ++ F }

theorem Delta.addF_addF (D : Delta) (F F' : List (List Vert)) :
    (D.addF F).addF F' = D.addF (F ++ F') := by simp [Delta.addF]

theorem Delta.addF_points (D : Delta) (F : List (List Vert)) (P N : List (ℝ × ℝ × ℝ)) :
    (D.addF F).points P N = (D.points P N).addF F := by simp [Delta.addF, Delta.points]

theorem does_begin {D : Delta} (ho : D.o = none) (mode : MeshMode) :
    Does m (Mesh.begin mode) D () (D.opn mode []) := Does.begin D mode ho

theorem does_vert (hb : Base m recs) {D : Delta} {v : Vert} (hv : Valid m D v) (mode : MeshMode)
    (l : List Vert) : Does m (xAddVert v) (D.opn mode l) () (D.opn mode (l ++ [v])) :=
  Does.xAddVert hb (D.opn mode l) v mode l rfl hv

theorem does_end (hb : Base m recs) {D : Delta} (ho : D.o = none) {mode : MeshMode}
    {l : List Vert} (hw : Whole mode l.length) :
    Does m Mesh.end (D.opn mode l) () (D.addF (group mode l)) := by
  have := Does.end hb (D.opn mode l) mode l rfl hw
  have e : ({ D.opn mode l with F := (D.opn mode l).F ++ group mode l, o := none } : Delta) =
      D.addF (group mode l) := by
    cases D; simp_all [Delta.opn, Delta.addF]
  rw [e] at this
  exact this

theorem does_forM {β : Type} (D : Delta) (mode : MeshMode) (f : β → MeshM Unit)
    (q : β → List Vert) (is : List β)
    (hf : ∀ i ∈ is, ∀ l, Does m (f i) (D.opn mode l) () (D.opn mode (l ++ q i))) (l : List Vert) :
    Does m (is.forM f) (D.opn mode l) () (D.opn mode (l ++ is.flatMap q)) := by
  induction is generalizing l with
  | nil => simpa using Does.pure () (D.opn mode l)
  | cons i is ih =>
    have h1 := hf i (by simp) l
    have h2 := ih (fun j hj => hf j (by simp [hj])) (l ++ q i)
    rw [List.append_assoc] at h2
    rw [List.flatMap_cons]
    exact h1.bind h2

theorem group_quads {α : Type} (A : List (List α)) (hA : ∀ a ∈ A, a.length = 4) :
    group .quads A.flatten = A := by
  have hl : A.flatten.length = 4 * A.length := by
    induction A with
    | nil => rfl
    | cons a A ih =>
      rw [List.flatten_cons, List.length_append, ih fun b hb => hA b (by simp [hb]),
        hA a (by simp), List.length_cons]; ring
  simp only [group, hl]
  rw [Nat.mul_div_cancel_left _ (by norm_num)]
  clear hl
  induction A with
  | nil => rfl
  | cons a A ih =>
    have h4 := hA a (by simp)
    rw [List.length_cons, blocks, List.flatten_cons, List.take_append_of_le_length h4.ge,
        List.take_of_length_le h4.le, List.drop_append_of_le_length h4.ge,
        List.drop_of_length_le h4.le, List.nil_append, ih fun b hb => hA b (by simp [hb])]

theorem whole_quads {α : Type} (A : List (List α)) (hA : ∀ a ∈ A, a.length = 4) :
    Whole .quads A.flatten.length := by
  refine ⟨by simp, fun _ => ?_⟩
  have hl : A.flatten.length = 4 * A.length := by
    induction A with
    | nil => rfl
    | cons a A ih =>
      rw [List.flatten_cons, List.length_append, ih fun b hb => hA b (by simp [hb]),
        hA a (by simp), List.length_cons]; ring
  omega

/-- The quad between two meridians at height `i`. Not in /repo: specification. -/
def quadAt (a b : Vert) (i : ℕ) : List Vert := [b.add i, a.add i, a.add (1 + i), b.add (1 + i)]

/-- The quads between two meridians of `n` vertices. Not in /repo: specification. -/
def ladder (a b : Vert) (n : ℕ) : List (List Vert) := (List.range (n - 1)).map (quadAt a b)

/-- The polygons between the meridians `a` and `b`. Not in /repo: specification. -/
def stripFaces (N S a b : Vert) (n : ℕ) : List (List Vert) :=
  [[N, a, b]] ++ ladder a b n ++ [[b.add (n - 1), a.add (n - 1), S]]

theorem ladder_length {a b : Vert} {n : ℕ} : ∀ f ∈ ladder a b n, f.length = 4 := by
  intro f hf
  obtain ⟨i, _, rfl⟩ := List.mem_map.1 hf
  rfl

theorem group_three {α : Type} (a b c : α) : group .triangles [a, b, c] = [[a, b, c]] := by
  simp [group, blocks]

theorem toNat_sub_one (n : ℕ) : ((n : ℤ) - 1).toNat = n - 1 := by omega

theorem does_ladder (hb : Base m recs) {D : Delta} {a b : Vert} {n : ℕ}
    (ha : ∀ i < n, Valid m D (a.add i)) (hbv : ∀ i < n, Valid m D (b.add i)) (l : List Vert) :
    Does m ((List.range (n - 1)).forM fun i => do
        xAddVert (b.add i)
        xAddVert (a.add i)
        xAddVert (a.add (1 + i))
        xAddVert (b.add (1 + i)))
      (D.opn .quads l) () (D.opn .quads (l ++ (ladder a b n).flatten)) := by
  have := does_forM (m := m) D .quads (fun i => do
        xAddVert (b.add i)
        xAddVert (a.add i)
        xAddVert (a.add (1 + i))
        xAddVert (b.add (1 + i))) (quadAt a b) (List.range (n - 1)) (by
      intro i hi l
      have hi : i < n - 1 := List.mem_range.1 hi
      have h1 := does_vert hb (hbv i (by omega)) .quads l
      have h2 := does_vert hb (ha i (by omega)) .quads (l ++ [b.add i])
      have h3 := does_vert hb (ha (1 + i) (by omega)) .quads (l ++ [b.add i] ++ [a.add i])
      have h4 := does_vert hb (hbv (1 + i) (by omega)) .quads
        (l ++ [b.add i] ++ [a.add i] ++ [a.add (1 + i)])
      have := h1.bind (f := fun _ => _) (h2.bind (f := fun _ => _) (h3.bind (f := fun _ => _) h4))
      simpa only [List.append_assoc, List.cons_append, List.nil_append, quadAt] using this) l
  unfold ladder
  rwa [← List.flatMap_def]

theorem does_end_triangle (hb : Base m recs) {D : Delta} (ho : D.o = none) (u v w : Vert) :
    Does m Mesh.end (D.opn .triangles ([] ++ [u] ++ [v] ++ [w])) () (D.addF [[u, v, w]]) := by
  have := does_end hb ho (mode := .triangles) (l := [u, v, w]) (by simp [Whole])
  rw [group_three] at this
  exact this

theorem does_triangle (hb : Base m recs) {D : Delta} (ho : D.o = none) {u v w : Vert}
    (hu : Valid m D u) (hv : Valid m D v) (hw : Valid m D w) {β : Type} {k : MeshM β} {x : β}
    {D' : Delta} (hk : Does m k (D.addF [[u, v, w]]) x D') :
    Does m (do
      Mesh.begin .triangles
      xAddVert u
      xAddVert v
      xAddVert w
      Mesh.end
      k) D x D' :=
  (does_begin ho _).bind (f := fun _ => _) ((does_vert hb hu _ _).bind (f := fun _ => _)
    ((does_vert hb hv _ _).bind (f := fun _ => _) ((does_vert hb hw _ _).bind (f := fun _ => _)
    ((does_end_triangle hb ho u v w).bind (f := fun _ => _) hk))))

theorem does_triangle_last (hb : Base m recs) {D : Delta} (ho : D.o = none) {u v w : Vert}
    (hu : Valid m D u) (hv : Valid m D v) (hw : Valid m D w) :
    Does m (do
      Mesh.begin .triangles
      xAddVert u
      xAddVert v
      xAddVert w
      Mesh.end) D () (D.addF [[u, v, w]]) :=
  (does_begin ho _).bind (f := fun _ => _) ((does_vert hb hu _ _).bind (f := fun _ => _)
    ((does_vert hb hv _ _).bind (f := fun _ => _) ((does_vert hb hw _ _).bind (f := fun _ => _)
    (does_end_triangle hb ho u v w))))

theorem does_strip (hb : Base m recs) {D : Delta} (ho : D.o = none) {N S a b : Vert} {n : ℕ}
    (hn : 0 < n) (hN : Valid m D N) (hS : Valid m D S) (ha : ∀ i < n, Valid m D (a.add i))
    (hbv : ∀ i < n, Valid m D (b.add i)) :
    Does m (xAddStrip N S a b n) D () (D.addF (stripFaces N S a b n)) := by
  unfold xAddStrip
  rw [toNat_sub_one]
  refine does_triangle hb ho hN (ha 0 hn) (hbv 0 hn) ?_
  refine (does_begin (D := D.addF [[N, a, b]]) ho _).bind (f := fun _ => _) ?_
  refine (does_ladder hb (D := D.addF [[N, a, b]]) ha hbv []).bind (f := fun _ => _) ?_
  rw [List.nil_append]
  refine (does_end hb (D := D.addF [[N, a, b]]) ho (whole_quads _ ladder_length)).bind
    (f := fun _ => _) ?_
  rw [group_quads _ ladder_length, Delta.addF_addF]
  have := does_triangle_last hb (D := D.addF ([[N, a, b]] ++ ladder a b n)) ho
    (hbv (n - 1) (by omega)) (ha (n - 1) (by omega)) hS
  rw [Delta.addF_addF] at this
  exact this

/-! ### Boundary -/

/-- Sum of a function over the directed edges of polygons. Not in /repo: specification. -/
def bnd (e : ℕ → ℕ → ℤ) (F : List (List Vert)) : ℤ :=
  (F.map fun f => ((cyclicPairs (f.map Vert.p)).map fun q => e q.1 q.2).sum).sum

theorem bnd_append (e : ℕ → ℕ → ℤ) (F G : List (List Vert)) :
    bnd e (F ++ G) = bnd e F + bnd e G := by simp [bnd]

theorem bnd_triangle (e : ℕ → ℕ → ℤ) (a b c : Vert) :
    bnd e [[a, b, c]] = e a.p b.p + e b.p c.p + e c.p a.p := by
  simp [bnd, cyclicPairs, List.rotate]; ring

theorem bnd_quad (e : ℕ → ℕ → ℤ) (a b c d : Vert) :
    bnd e [[a, b, c, d]] = e a.p b.p + e b.p c.p + e c.p d.p + e d.p a.p := by
  simp [bnd, cyclicPairs, List.rotate]; ring

/-- Sum along `k` steps from `a`. Not in /repo: specification. -/
def steps (e : ℕ → ℕ → ℤ) (a k : ℕ) : ℤ := ((List.range k).map fun i => e (a + i) (a + (1 + i))).sum

theorem steps_succ (e : ℕ → ℕ → ℤ) (a k : ℕ) :
    steps e a (k + 1) = steps e a k + e (a + k) (a + (1 + k)) := by
  simp [steps, List.range_succ]

/-- Sum along a meridian from pole to pole. Not in /repo: specification. -/
def path (e : ℕ → ℕ → ℤ) (N S a : Vert) (n : ℕ) : ℤ :=
  e N.p a.p + steps e a.p (n - 1) + e (a.p + (n - 1)) S.p

theorem bnd_ladder (e : ℕ → ℕ → ℤ) (he : ∀ a b, e a b = -e b a) (a b : Vert) (k : ℕ) :
    bnd e ((List.range k).map (quadAt a b)) =
      steps e a.p k - steps e b.p k + e b.p a.p + e (a.p + k) (b.p + k) := by
  induction k with
  | zero => simp [bnd, steps]; rw [he b.p a.p]; ring
  | succ k ih =>
    rw [List.range_succ, List.map_append, bnd_append, ih, steps_succ, steps_succ]
    simp only [List.map_cons, List.map_nil, quadAt]
    rw [bnd_quad]
    simp only [Vert.add]
    rw [he (b.p + (1 + k)) (b.p + k), he (b.p + k) (a.p + k),
      show a.p + (k + 1) = a.p + (1 + k) by ring, show b.p + (k + 1) = b.p + (1 + k) by ring]
    ring

theorem bnd_strip (e : ℕ → ℕ → ℤ) (he : ∀ a b, e a b = -e b a) (N S a b : Vert) (n : ℕ) :
    bnd e (stripFaces N S a b n) = path e N S a n - path e N S b n := by
  unfold stripFaces path ladder
  rw [bnd_append, bnd_append, bnd_ladder e he, bnd_triangle, bnd_triangle]
  simp only [Vert.add]
  rw [he b.p N.p, he a.p b.p, he (b.p + (n - 1)) (a.p + (n - 1)), he S.p]
  ring

/-! ### Sectors -/

/-- The vertex refers to an added position and an added normal, which lie on the rounded box.
Not in /repo: specification. -/
def Good (hx hy hz r : ℝ) (m : Mesh) (D : Delta) (v : Vert) : Prop :=
  ∃ j i p n, v.p = m.positionsNb + j ∧ v.n = m.normalsNb + i ∧ D.P[j]? = some p ∧
    D.N[i]? = some n ∧ OnRoundedBox hx hy hz r p n

theorem Good.valid {D : Delta} {v : Vert} (h : Good hx hy hz r m D v) : Valid m D v := by
  obtain ⟨j, i, p, n, h1, h2, h3, h4, -⟩ := h
  have := (List.getElem?_eq_some_iff.1 h3).1
  have := (List.getElem?_eq_some_iff.1 h4).1
  exact ⟨by omega, by omega⟩

theorem Good.points {D : Delta} {v : Vert} (h : Good hx hy hz r m D v) (P N : List (ℝ × ℝ × ℝ)) :
    Good hx hy hz r m (D.points P N) v := by
  obtain ⟨j, i, p, n, h1, h2, h3, h4, h5⟩ := h
  have hj := (List.getElem?_eq_some_iff.1 h3).1
  have hi := (List.getElem?_eq_some_iff.1 h4).1
  refine ⟨j, i, p, n, h1, h2, ?_, ?_, h5⟩
  · simp only [Delta.points]; rw [List.getElem?_append_left hj]; exact h3
  · simp only [Delta.points]; rw [List.getElem?_append_left hi]; exact h4

theorem Good.addF {D : Delta} {v : Vert} (h : Good hx hy hz r m D v) (F : List (List Vert)) :
    Good hx hy hz r m (D.addF F) v := h

theorem good_new {D : Delta} {P N : List (ℝ × ℝ × ℝ)}
    (h : List.Forall₂ (OnRoundedBox hx hy hz r) P N) (i : ℕ) (hi : i < P.length) :
    Good hx hy hz r m (D.points P N)
      (Vert.add ⟨m.positionsNb + D.P.length, m.normalsNb + D.N.length⟩ i) := by
  have hl := h.length_eq
  refine ⟨D.P.length + i, D.N.length + i, P[i], N[i], by simp [Vert.add]; ring,
    by simp [Vert.add]; ring, ?_, ?_, List.Forall₂.get h hi (by omega)⟩
  · simp [Delta.points, hi]
  · simp [Delta.points, hl ▸ hi]

/-- The vertex refers to an added position, which satisfies `Q`. Not in /repo: specification. -/
def At (m : Mesh) (D : Delta) (v : Vert) (Q : ℝ × ℝ × ℝ → Prop) : Prop :=
  ∃ j p, v.p = m.positionsNb + j ∧ D.P[j]? = some p ∧ Q p

theorem At.mono {D : Delta} {v : Vert} {Q : ℝ × ℝ × ℝ → Prop} (h : At m D v Q)
    (P N : List (ℝ × ℝ × ℝ)) (F : List (List Vert)) : At m ((D.points P N).addF F) v Q := by
  obtain ⟨j, p, h1, h3, h4⟩ := h
  have hj := (List.getElem?_eq_some_iff.1 h3).1
  refine ⟨j, p, h1, ?_, h4⟩
  simp only [Delta.points, Delta.addF]; rw [List.getElem?_append_left hj]; exact h3

/-- Strictly inside the rounded box. Not in /repo: specification. -/
def Inside (hx hy hz r : ℝ) (p : ℝ × ℝ × ℝ) : Prop := boxDistSq hx hy hz p < r ^ 2

theorem at_new {D : Delta} {P N : List (ℝ × ℝ × ℝ)} {Q : ℝ × ℝ × ℝ → Prop} (h : ∃ p ∈ P, Q p) (nn : ℕ) :
    ∃ i < P.length, At m (D.points P N) (Vert.add ⟨m.positionsNb + D.P.length, nn⟩ i) Q := by
  obtain ⟨p, hp, hq⟩ := h
  obtain ⟨i, hi, rfl⟩ := List.mem_iff_getElem.1 hp
  refine ⟨i, hi, D.P.length + i, _, by simp [Vert.add]; ring, ?_, hq⟩
  simp [Delta.points, hi]

theorem mem_strip {N S a b : Vert} {n : ℕ} (hn : 0 < n) (Q : Vert → Prop) (hN : Q N) (hS : Q S)
    (ha : ∀ i < n, Q (a.add i)) (hb : ∀ i < n, Q (b.add i)) :
    ∀ v ∈ (stripFaces N S a b n).flatten, Q v := by
  intro v hv
  obtain ⟨f, hf, hvf⟩ := List.mem_flatten.1 hv
  simp only [stripFaces, List.mem_append, List.mem_singleton] at hf
  rcases hf with (rfl | hf) | rfl
  · simp only [List.mem_cons, List.not_mem_nil, or_false] at hvf
    rcases hvf with rfl | rfl | rfl
    · exact hN
    · exact ha 0 hn
    · exact hb 0 hn
  · obtain ⟨i, hi, rfl⟩ := List.mem_map.1 hf
    have hi := List.mem_range.1 hi
    simp only [quadAt, List.mem_cons, List.not_mem_nil, or_false] at hvf
    rcases hvf with rfl | rfl | rfl | rfl
    · exact hb _ (by omega)
    · exact ha _ (by omega)
    · exact ha _ (by omega)
    · exact hb _ (by omega)
  · simp only [List.mem_cons, List.not_mem_nil, or_false] at hvf
    rcases hvf with rfl | rfl | rfl
    · exact hb _ (by omega)
    · exact ha _ (by omega)
    · exact hS

/-- The polygons joining two sectors. Not in /repo: specification. -/
def joinFaces (s t : Sector) (a b : Vert) (n : ℕ) : List (List Vert) :=
  [[t.north, s.north, a, b]] ++ ladder a b n ++
    [[b.add (n - 1), a.add (n - 1), s.south, t.south]]

/-- The vertex refers to the added position `p` and the added normal `n`. Helper of the proofs. Not
in /repo: specification. -/
def VertexAt (m : Mesh) (D : Delta) (v : Vert) (p n : ℝ × ℝ × ℝ) : Prop :=
  ∃ j i, v.p = m.positionsNb + j ∧ v.n = m.normalsNb + i ∧ D.P[j]? = some p ∧ D.N[i]? = some n

theorem VertexAt.mono {D : Delta} {v : Vert} {p n : ℝ × ℝ × ℝ} (h : VertexAt m D v p n)
    (P N : List (ℝ × ℝ × ℝ)) (F : List (List Vert)) : VertexAt m ((D.points P N).addF F) v p n := by
  obtain ⟨j, i, h1, h2, h3, h4⟩ := h
  have hj := (List.getElem?_eq_some_iff.1 h3).1
  have hi := (List.getElem?_eq_some_iff.1 h4).1
  refine ⟨j, i, h1, h2, ?_, ?_⟩
  · simp only [Delta.points, Delta.addF]; rw [List.getElem?_append_left hj]; exact h3
  · simp only [Delta.points, Delta.addF]; rw [List.getElem?_append_left hi]; exact h4

/-- The vertices of a meridian. Helper of the proofs. Not in /repo: specification. -/
def MeridianAt (hz r : ℝ) (m : Mesh) (D : Delta) (nb : ℕ) (x y lam : ℝ) (a : Vert) : Prop :=
  ∀ i < meridianSize hz nb, VertexAt m D (a.add i)
    (polarPoint r x y lam (Real.sin (merPhi hz nb i)) (Real.cos (merPhi hz nb i)) (merZ hz nb i))
    (polarNormal lam (Real.sin (merPhi hz nb i)) (Real.cos (merPhi hz nb i)))

theorem MeridianAt.mono {D : Delta} {nb : ℕ} {x y lam : ℝ} {a : Vert}
    (h : MeridianAt hz r m D nb x y lam a) (P N : List (ℝ × ℝ × ℝ)) (F : List (List Vert)) :
    MeridianAt hz r m ((D.points P N).addF F) nb x y lam a :=
  fun i hi => (h i hi).mono P N F

theorem meridian_new {D : Delta} {P N : List (ℝ × ℝ × ℝ)} {nb : ℕ} {x y lam : ℝ}
    (hl : P.length = meridianSize hz nb)
    (h : ∀ t < P.length, P[t]? = some (polarPoint r x y lam (Real.sin (merPhi hz nb t))
          (Real.cos (merPhi hz nb t)) (merZ hz nb t)) ∧
        N[t]? = some (polarNormal lam (Real.sin (merPhi hz nb t))
          (Real.cos (merPhi hz nb t)))) :
    MeridianAt hz r m (D.points P N) nb x y lam
      ⟨m.positionsNb + D.P.length, m.normalsNb + D.N.length⟩ := by
  intro i hi
  obtain ⟨h1, h2⟩ := h i (by omega)
  refine ⟨D.P.length + i, D.N.length + i, by simp [Vert.add]; ring, by simp [Vert.add]; ring, ?_, ?_⟩
  · simp only [Delta.points]
    rw [List.getElem?_append_right (by omega), Nat.add_sub_cancel_left]
    exact h1
  · simp only [Delta.points]
    rw [List.getElem?_append_right (by omega), Nat.add_sub_cancel_left]
    exact h2

/-- The polygon is counter-clockwise around the normals of its vertices. Helper of the proofs. Not
in /repo: specification. -/
def OutwardFace (m : Mesh) (D : Delta) (f : List Vert) : Prop :=
  ∃ L : List ((ℝ × ℝ × ℝ) × (ℝ × ℝ × ℝ)), List.Forall₂ (fun v q => VertexAt m D v q.1 q.2) f L ∧
    ∀ q ∈ L, 0 < signedArea (L.map Prod.fst) q.2

theorem OutwardFace.mono {D : Delta} {f : List Vert} (h : OutwardFace m D f)
    (P N : List (ℝ × ℝ × ℝ)) (F : List (List Vert)) : OutwardFace m ((D.points P N).addF F) f := by
  obtain ⟨L, h1, h2⟩ := h
  exact ⟨L, h1.imp fun v q hv => hv.mono P N F, h2⟩

theorem out_quad {D : Delta} {v1 v2 v3 v4 : Vert} {r x1 y1 l1 x2 y2 l2 s1 c1 z1 s2 c2 z2 : ℝ}
    (hr : 0 < r) (ha : Ahead r x1 y1 l1 x2 y2 l2) (h1 : 0 ≤ s1) (h1' : s1 ≤ 1) (h2 : 0 ≤ s2)
    (h2' : s2 ≤ 1) (h12 : 0 < s1 + s2) (hf1 : Falls r s1 c1 z1 s2 c2 z2 s1 c1)
    (hf2 : Falls r s1 c1 z1 s2 c2 z2 s2 c2)
    (w1 : VertexAt m D v1 (polarPoint r x2 y2 l2 s1 c1 z1) (polarNormal l2 s1 c1))
    (w2 : VertexAt m D v2 (polarPoint r x1 y1 l1 s1 c1 z1) (polarNormal l1 s1 c1))
    (w3 : VertexAt m D v3 (polarPoint r x1 y1 l1 s2 c2 z2) (polarNormal l1 s2 c2))
    (w4 : VertexAt m D v4 (polarPoint r x2 y2 l2 s2 c2 z2) (polarNormal l2 s2 c2)) :
    OutwardFace m D [v1, v2, v3, v4] := by
  refine ⟨[(_, _), (_, _), (_, _), (_, _)], .cons w1 (.cons w2 (.cons w3 (.cons w4 .nil))), ?_⟩
  intro q hq
  simp only [List.mem_cons, List.not_mem_nil, or_false] at hq
  rcases hq with rfl | rfl | rfl | rfl
  · exact quad_out hr ha h1 h1' h2 h2' h12 hf1 _ (Or.inr rfl)
  · exact quad_out hr ha h1 h1' h2 h2' h12 hf1 _ (Or.inl rfl)
  · exact quad_out hr ha h1 h1' h2 h2' h12 hf2 _ (Or.inl rfl)
  · exact quad_out hr ha h1 h1' h2 h2' h12 hf2 _ (Or.inr rfl)

theorem out_ladder {D : Delta} {nb : ℕ} {x1 y1 l1 x2 y2 l2 : ℝ} {a b : Vert} (hE : Ext hx hy hz r)
    (ha : MeridianAt hz r m D nb x1 y1 l1 a) (hb : MeridianAt hz r m D nb x2 y2 l2 b)
    (hA : Ahead r x1 y1 l1 x2 y2 l2) : ∀ f ∈ ladder a b (meridianSize hz nb), OutwardFace m D f := by
  intro f hf
  obtain ⟨i, hi, rfl⟩ := List.mem_map.1 hf
  have hi := List.mem_range.1 hi
  have s1 := mer_sin (hz := hz) (nb := nb) (i := i) (by omega)
  have s2 := mer_sin (hz := hz) (nb := nb) (i := i + 1) (by omega)
  unfold quadAt
  rw [Nat.add_comm 1 i]
  exact out_quad hE.r hA s1.le (Real.sin_le_one _) s2.le (Real.sin_le_one _) (by linarith)
    (falls_mer hE.z hE.r (by omega) i (Or.inl rfl)) (falls_mer hE.z hE.r (by omega) (i + 1) (Or.inr rfl))
    (hb i (by omega)) (ha i (by omega)) (ha (i + 1) (by omega)) (hb (i + 1) (by omega))

theorem north_at {D : Delta} {v : Vert} {x y : ℝ} (l : ℝ)
    (h : VertexAt m D v (x, y, hz + r) (0, 0, 1)) :
    VertexAt m D v (polarPoint r x y l 0 1 hz) (polarNormal l 0 1) := by
  simpa [polarPoint, polarNormal] using h

theorem south_at {D : Delta} {v : Vert} {x y : ℝ} (l : ℝ)
    (h : VertexAt m D v (x, y, -(hz + r)) (0, 0, -1)) :
    VertexAt m D v (polarPoint r x y l 0 (-1) (-hz)) (polarNormal l 0 (-1)) := by
  have e : -(hz + r) = -hz + r * -1 := by ring
  rw [e] at h
  simpa [polarPoint, polarNormal] using h

theorem out_join {D : Delta} {nb : ℕ} {x1 y1 l1 x2 y2 l2 : ℝ} {a b : Vert} {s t : Sector}
    (hE : Ext hx hy hz r)
    (ha : MeridianAt hz r m D nb x1 y1 l1 a) (hb : MeridianAt hz r m D nb x2 y2 l2 b)
    (hsn : VertexAt m D s.north (x1, y1, hz + r) (0, 0, 1))
    (hss : VertexAt m D s.south (x1, y1, -(hz + r)) (0, 0, -1))
    (htn : VertexAt m D t.north (x2, y2, hz + r) (0, 0, 1))
    (hts : VertexAt m D t.south (x2, y2, -(hz + r)) (0, 0, -1))
    (hA : Ahead r x1 y1 l1 x2 y2 l2) :
    ∀ f ∈ joinFaces s t a b (meridianSize hz nb), OutwardFace m D f := by
  have hn := meridianSize_pos hz nb
  intro f hf
  simp only [joinFaces, List.mem_append, List.mem_singleton] at hf
  rcases hf with (rfl | hf) | rfl
  · have s0 := mer_sin hn
    exact out_quad hE.r hA le_rfl zero_le_one s0.le (Real.sin_le_one _) (by linarith)
      (falls_north hE.r nb).1 (falls_north hE.r nb).2 (north_at l2 htn) (north_at l1 hsn)
      (ha 0 hn) (hb 0 hn)
  · exact out_ladder hE ha hb hA f hf
  · have s0 := mer_sin (hz := hz) (nb := nb) (i := meridianSize hz nb - 1) (by omega)
    exact out_quad hE.r hA s0.le (Real.sin_le_one _) le_rfl zero_le_one (by linarith)
      (falls_south hE.r nb _ (by omega)).1 (falls_south hE.r nb _ (by omega)).2
      (hb _ (by omega)) (ha _ (by omega)) (south_at l1 hss) (south_at l2 hts)

theorem out_strip {D : Delta} {nb : ℕ} {x y l1 l2 : ℝ} {a b north south : Vert}
    (hE : Ext hx hy hz r)
    (ha : MeridianAt hz r m D nb x y l1 a) (hb : MeridianAt hz r m D nb x y l2 b)
    (hsn : VertexAt m D north (x, y, hz + r) (0, 0, 1))
    (hss : VertexAt m D south (x, y, -(hz + r)) (0, 0, -1))
    (hA : Ahead r x y l1 x y l2) :
    ∀ f ∈ stripFaces north south a b (meridianSize hz nb), OutwardFace m D f := by
  have hn := meridianSize_pos hz nb
  intro f hf
  simp only [stripFaces, List.mem_append, List.mem_singleton] at hf
  have nn : ∀ l, polarPoint r x y l 0 1 hz = (x, y, hz + r) := by
    intro l; simp [polarPoint]
  have ss : ∀ l, polarPoint r x y l 0 (-1) (-hz) = (x, y, -(hz + r)) := by
    intro l; simp [polarPoint]; ring
  rcases hf with (rfl | hf) | rfl
  · have s0 := mer_sin hn
    have f1 := (falls_north (hz := hz) hE.r nb).1
    have f2 := (falls_north (hz := hz) hE.r nb).2
    have q := fun {s c : ℝ} (hf : Falls r 0 1 hz (Real.sin (merPhi hz nb 0))
        (Real.cos (merPhi hz nb 0)) (merZ hz nb 0) s c) => quad_out hE.r hA le_rfl zero_le_one s0.le
      (Real.sin_le_one _) (by linarith) hf
    simp only [nn] at q
    refine ⟨[(_, _), (_, _), (_, _)], .cons hsn (.cons (ha 0 hn) (.cons (hb 0 hn) .nil)), ?_⟩
    intro p hp
    simp only [List.map_cons, List.map_nil]
    rw [signedArea_north]
    simp only [List.mem_cons, List.not_mem_nil, or_false] at hp
    rcases hp with rfl | rfl | rfl
    · have := q f1 l1 (Or.inl rfl)
      rwa [show polarNormal l1 0 1 = (0, 0, 1) by simp [polarNormal]] at this
    · exact q f2 l1 (Or.inl rfl)
    · exact q f2 l2 (Or.inr rfl)
  · exact out_ladder hE ha hb hA f hf
  · have s0 := mer_sin (hz := hz) (nb := nb) (i := meridianSize hz nb - 1) (by omega)
    have f1 := (falls_south (hz := hz) hE.r nb (meridianSize hz nb - 1) (by omega)).1
    have f2 := (falls_south (hz := hz) hE.r nb (meridianSize hz nb - 1) (by omega)).2
    have q := fun {s c : ℝ} (hf : Falls r (Real.sin (merPhi hz nb (meridianSize hz nb - 1)))
        (Real.cos (merPhi hz nb (meridianSize hz nb - 1))) (merZ hz nb (meridianSize hz nb - 1)) 0 (-1)
        (-hz) s c) => quad_out hE.r hA s0.le
      (Real.sin_le_one _) le_rfl zero_le_one (by linarith) hf
    simp only [ss] at q
    refine ⟨[(_, _), (_, _), (_, _)], .cons (hb _ (by omega)) (.cons (ha _ (by omega))
      (.cons hss .nil)), ?_⟩
    intro p hp
    simp only [List.map_cons, List.map_nil]
    rw [signedArea_south]
    simp only [List.mem_cons, List.not_mem_nil, or_false] at hp
    rcases hp with rfl | rfl | rfl
    · exact q f1 l2 (Or.inr rfl)
    · exact q f1 l1 (Or.inl rfl)
    · have := q f2 l1 (Or.inl rfl)
      rwa [show polarNormal l1 0 (-1) = (0, 0, -1) by simp [polarNormal]] at this

/-- Invariant of the loop over the meridians of a sector: helper of the proofs. Not in /repo:
specification. -/
def SectorInv (hx hy hz r : ℝ) (m : Mesh) (D : Delta) (north south : Vert) (nb : ℕ)
    (x y start step : ℝ) (n : ℕ) (j : ℕ) (st : Option Vert × List Vert) (D' : Delta) : Prop :=
  st.2.length = j ∧ st.1 = st.2.getLast? ∧
  (∀ a ∈ st.2, ∀ i < n, Good hx hy hz r m D' (a.add i)) ∧
  (∀ a ∈ st.2, hz ≠ 0 → ∃ i < n, At m D' (a.add i) (Inside hx hy hz r)) ∧
  (∀ (t : ℕ) (a : Vert), st.2[t]? = some a → MeridianAt hz r m D' nb x y (start + t * step) a) ∧
  ∃ P N F, D' = (D.points P N).addF F ∧ (∀ v ∈ F.flatten, Good hx hy hz r m D' v) ∧
    (∀ f ∈ F, OutwardFace m D' f) ∧ (st.2 = [] → F = []) ∧
    ∀ e : ℕ → ℕ → ℤ, (∀ a b, e a b = -e b a) → ∀ a b, st.2.head? = some a →
      st.2.getLast? = some b → bnd e F = path e north south a n - path e north south b n

theorem meridianSize_cast (hz : ℝ) (nb : ℕ) :
    xSectorNbAdditionalVertices hz nb = (meridianSize hz nb : ℤ) := by
  unfold xSectorNbAdditionalVertices meridianSize
  split_ifs <;> push_cast <;> rfl

theorem does_sectorStep (hb : Base m recs) (hE : Ext hx hy hz r) {x y : ℝ}
    (nb : ℕ) (start step : ℝ) (hstep : 0 < Real.sin step) (D : Delta) (ho : D.o = none)
    (north south : Vert) (hNv : VertexAt m D north (x, y, hz + r) (0, 0, 1))
    (hSv : VertexAt m D south (x, y, -(hz + r)) (0, 0, -1)) (hN : Good hx hy hz r m D north) (hS : Good hx hy hz r m D south)
    (j : ℕ) (hX : Side hx x (Real.cos (start + j * step)) 0.00001)
    (hY : Side hy y (Real.sin (start + j * step)) 0.00001) (st : Option Vert × List Vert) (D' : Delta)
    (h : SectorInv hx hy hz r m D north south nb x y start step (meridianSize hz nb) j st D') :
    ∃ st' D'', Does m (xAddSectorStep hz r nb x y start step north south st j) D' st' D'' ∧
      SectorInv hx hy hz r m D north south nb x y start step (meridianSize hz nb) (j + 1) st' D'' := by
  obtain ⟨hlen, hlast, hms, hins, hmer, P, N, F, rfl, hF, hout, hnil, hbnd⟩ := h
  set D' := (D.points P N).addF F with hD'
  obtain ⟨P', N', hd, hPN, hl, hin, hex⟩ := does_meridian hb hE hX hY nb D'
  set pos : Vert := ⟨m.positionsNb + D'.P.length, m.normalsNb + D'.N.length⟩ with hpos
  set n := meridianSize hz nb with hn
  have hn0 : 0 < n := meridianSize_pos hz nb
  set D1 := D'.points P' N' with hD1
  have hposg : ∀ i < n, Good hx hy hz r m D1 (pos.add i) :=
    fun i hi => good_new hPN i (by omega)
  have hposi : hz ≠ 0 → ∃ i < n, At m D1 (pos.add i) (Inside hx hy hz r) := by
    intro h
    rw [← hl]
    exact at_new (hin h) _
  have hposm : MeridianAt hz r m D1 nb x y (start + j * step) pos := meridian_new hl hex
  have hN1 : Good hx hy hz r m D1 north := ((hN.points P N).addF F).points P' N'
  have hS1 : Good hx hy hz r m D1 south := ((hS.points P N).addF F).points P' N'
  have hD1eq : D1 = (D.points (P ++ P') (N ++ N')).addF F := by
    rw [hD1, hD', Delta.addF_points, Delta.points_points]
  have ho1 : D1.o = none := ho
  have ha1 : xSectorNbAdditionalVertices hz nb =
      ((m.positionsNb + D1.P.length - pos.p : ℕ) : ℤ) := by
    rw [meridianSize_cast, ← hn, ← hl, hpos, hD1]
    simp only [Delta.points, List.length_append]
    congr 1; omega
  have ha2 : xSectorNbAdditionalVertices hz nb =
      ((m.normalsNb + D1.N.length - pos.n : ℕ) : ℤ) := by
    have := hPN.length_eq
    rw [meridianSize_cast, ← hn, ← hl, hpos, hD1]
    simp only [Delta.points, List.length_append]
    congr 1; omega
  have run : ∀ {D2 : Delta}, Does m (match st.1 with
      | none => pure ()
      | some ppos => xAddStrip north south ppos pos (xSectorNbAdditionalVertices hz nb) :
        MeshM Unit) D1 () D2 →
      Does m (xAddSectorStep hz r nb x y start step north south st j) D'
        (some pos, st.2 ++ [pos]) D2 := by
    intro D2 h2
    unfold xAddSectorStep
    refine hd.bind (f := fun _ => _) ?_
    refine (Does.get Mesh.positionsNb D1 _ fun cn => plus_positionsNb hb D1 cn).bind
      (f := fun _ => _) ?_
    refine (Does.get Mesh.normalsNb D1 _ fun cn => plus_normalsNb hb D1 cn).bind
      (f := fun _ => _) ?_
    refine (Does.assert D1 ha1).bind (f := fun _ => _) ?_
    refine (Does.assert D1 ha2).bind (f := fun _ => _) ?_
    have h3 := h2.bind (f := fun _ => (pure (some pos, st.2 ++ [pos]) :
      MeshM (Option Vert × List Vert))) (Does.pure _ _)
    revert h3
    cases st.1 <;> exact id
  cases hst : st.1 with
  | none =>
    have hms0 : st.2 = [] := by
      rw [hst] at hlast
      exact List.getLast?_eq_none_iff.1 hlast.symm
    have hF0 := hnil hms0
    refine ⟨_, D1, run (by rw [hst]; exact Does.pure () D1), ?_, ?_, ?_, ?_, ?_, P ++ P', N ++ N', F,
      hD1eq, ?_, ?_, ?_, ?_⟩
    · simp [hlen]
    · simp
    · intro a ha
      rw [hms0] at ha
      simp at ha
      rw [ha]; exact hposg
    · intro a ha
      rw [hms0] at ha
      simp at ha
      rw [ha]; exact hposi
    · intro t a ha
      rw [hms0] at ha hlen
      have hj0 : j = 0 := by simpa using hlen.symm
      cases t with
      | zero =>
        have : pos = a := by simpa using ha
        rw [← this, ← hj0]
        exact hposm
      | succ t => simp at ha
    · rw [hF0]; simp
    · rw [hF0]; simp
    · simp
    · intro e he a b hah hbh
      rw [hms0] at hah hbh
      simp at hah hbh
      rw [hF0, ← hah, ← hbh]
      simp [bnd]
  | some ppos =>
    have hmem : ppos ∈ st.2 := by
      rw [hst] at hlast
      exact List.mem_of_getLast? hlast.symm
    have hppos : ∀ i < n, Good hx hy hz r m D1 (ppos.add i) :=
      fun i hi => (hms ppos hmem i hi).points P' N'
    have hstrip := does_strip hb ho1 hn0 hN1.valid hS1.valid (fun i hi => (hppos i hi).valid)
      (fun i hi => (hposg i hi).valid)
    refine ⟨_, D1.addF (stripFaces north south ppos pos n), run (by
      rw [hst, meridianSize_cast, ← hn]; exact hstrip), ?_, ?_, ?_, ?_, ?_, P ++ P', N ++ N',
      F ++ stripFaces north south ppos pos n, ?_, ?_, ?_, ?_, ?_⟩
    · simp [hlen]
    · simp
    · intro a ha i hi
      rcases List.mem_append.1 ha with ha | ha
      · exact ((hms a ha i hi).points P' N').addF _
      · rw [List.mem_singleton.1 ha]; exact (hposg i hi).addF _
    · intro a ha h
      rcases List.mem_append.1 ha with ha | ha
      · obtain ⟨i, hi, hat⟩ := hins a ha h
        exact ⟨i, hi, hat.mono P' N' (stripFaces north south ppos pos n)⟩
      · rw [List.mem_singleton.1 ha]
        exact hposi h
    · intro t a ha
      by_cases ht : t < st.2.length
      · rw [List.getElem?_append_left ht] at ha
        exact (hmer t a ha).mono P' N' _
      · rw [List.getElem?_append_right (by omega)] at ha
        obtain ⟨h1, h2⟩ := List.getElem?_eq_some_iff.1 ha
        simp only [List.length_singleton] at h1
        have htj : t = j := by omega
        have : pos = a := by simpa using h2
        rw [← this, htj]
        exact hposm.mono [] [] _ |> fun h => by simpa [Delta.points] using h
    · rw [hD1eq, Delta.addF_addF]
    · intro v hv
      rw [List.flatten_append, List.mem_append] at hv
      rcases hv with hv | hv
      · exact ((hF v hv).points P' N').addF _
      · exact mem_strip hn0 (fun v => Good hx hy hz r m (D1.addF _) v) (hN1.addF _) (hS1.addF _)
          (fun i hi => (hppos i hi).addF _) (fun i hi => (hposg i hi).addF _) v hv
    · intro f hf
      rcases List.mem_append.1 hf with hf | hf
      · exact (hout f hf).mono P' N' _
      · have hj1 : 0 < j := by
          rw [← hlen]; exact List.length_pos_of_mem hmem
        have hpp : st.2[j - 1]? = some ppos := by
          rw [hst, List.getLast?_eq_getElem?, hlen] at hlast
          exact hlast.symm
        have hm1 := (hmer _ _ hpp).mono P' N' (stripFaces north south ppos pos n)
        have hm2 := hposm.mono [] [] (stripFaces north south ppos pos n)
        have eD : (D1.points [] []).addF (stripFaces north south ppos pos n) =
            D1.addF (stripFaces north south ppos pos n) := by simp [Delta.points]
        rw [eD] at hm2
        have hcast : ((j - 1 : ℕ) : ℝ) = j - 1 := by
          rw [Nat.cast_sub hj1]; norm_num
        refine out_strip hE hm1 hm2 ?_ ?_ (ahead_turn ?_) f hf
        · exact (hNv.mono P N F).mono P' N' _
        · exact (hSv.mono P N F).mono P' N' _
        · rw [hcast]
          convert hstep using 2
          ring
    · simp
    · intro e he a b hah hbh
      have hne : st.2 ≠ [] := List.ne_nil_of_mem hmem
      have hb' : b = pos := by simpa using hbh.symm
      have hah' : st.2.head? = some a := by
        rw [List.head?_append] at hah
        cases h0 : st.2.head? with
        | none => exact absurd (List.head?_eq_none_iff.1 h0) hne
        | some c => rw [h0] at hah; simpa using hah
      rw [bnd_append, hbnd e he a ppos hah' (by rw [← hlast, hst]), bnd_strip e he, hb']
      ring

/-- A sector built by the factory: its poles and its first and last meridians are on the rounded
box. Not in /repo: specification. -/
structure SectorOk (hx hy hz r : ℝ) (m : Mesh) (D : Delta) (n : ℕ) (s : Sector) (a b : Vert) :
    Prop where
  north : Good hx hy hz r m D s.north
  south : Good hx hy hz r m D s.south
  first : s.meridians[0]? = some a
  last : s.meridians.reverse[0]? = some b
  first_good : ∀ i < n, Good hx hy hz r m D (a.add i)
  last_good : ∀ i < n, Good hx hy hz r m D (b.add i)
  last_inside : hz ≠ 0 → ∃ i < n, At m D (b.add i) (Inside hx hy hz r)

theorem SectorOk.mono {D : Delta} {n : ℕ} {s : Sector} {a b : Vert}
    (h : SectorOk hx hy hz r m D n s a b) (P N : List (ℝ × ℝ × ℝ)) (F : List (List Vert)) :
    SectorOk hx hy hz r m ((D.points P N).addF F) n s a b :=
  ⟨(h.north.points P N).addF F, (h.south.points P N).addF F, h.first, h.last,
    fun i hi => ((h.first_good i hi).points P N).addF F,
    fun i hi => ((h.last_good i hi).points P N).addF F,
    fun h0 => let ⟨i, hi, h1⟩ := h.last_inside h0; ⟨i, hi, h1.mono P N F⟩⟩

/-- The normals of the poles. Not in /repo: specification. -/
def Poles (m : Mesh) (D : Delta) (nn sn : ℕ) : Prop :=
  ∃ i j, nn = m.normalsNb + i ∧ sn = m.normalsNb + j ∧ D.N[i]? = some (0, 0, 1) ∧
    D.N[j]? = some (0, 0, -1)

theorem Poles.mono {D : Delta} {nn sn : ℕ} (h : Poles m D nn sn) (P N : List (ℝ × ℝ × ℝ))
    (F : List (List Vert)) : Poles m ((D.points P N).addF F) nn sn := by
  obtain ⟨i, j, h1, h2, h3, h4⟩ := h
  have hi := (List.getElem?_eq_some_iff.1 h3).1
  have hj := (List.getElem?_eq_some_iff.1 h4).1
  refine ⟨i, j, h1, h2, ?_, ?_⟩
  · simp only [Delta.points, Delta.addF]; rw [List.getElem?_append_left hi]; exact h3
  · simp only [Delta.points, Delta.addF]; rw [List.getElem?_append_left hj]; exact h4

theorem does_sector (hb : Base m recs) (hE : Ext hx hy hz r) {x y : ℝ} (nb : ℕ) (start step : ℝ)
    (hstep : 0 < Real.sin step) (k : ℤ) (hk : 0 < k)
    (hsec : ∀ j : ℕ, (j : ℤ) < k → Side hx x (Real.cos (start + j * step)) 0.00001 ∧
      Side hy y (Real.sin (start + j * step)) 0.00001)
    (D : Delta) (ho : D.o = none) {nn sn : ℕ} (hp : Poles m D nn sn) :
    ∃ s a b P N F, Does m (xAddSector hz r nb x y start step k nn sn) D s
        ((D.points P N).addF F) ∧
      SectorOk hx hy hz r m ((D.points P N).addF F) (meridianSize hz nb) s a b ∧
      At m ((D.points P N).addF F) s.north (· = (x, y, hz + r)) ∧
      At m ((D.points P N).addF F) s.south (· = (x, y, -(hz + r))) ∧
      (∀ v ∈ F.flatten, Good hx hy hz r m ((D.points P N).addF F) v) ∧
      VertexAt m ((D.points P N).addF F) s.north (x, y, hz + r) (0, 0, 1) ∧
      VertexAt m ((D.points P N).addF F) s.south (x, y, -(hz + r)) (0, 0, -1) ∧
      MeridianAt hz r m ((D.points P N).addF F) nb x y start a ∧
      MeridianAt hz r m ((D.points P N).addF F) nb x y (start + ((k.toNat - 1 : ℕ) : ℝ) * step) b ∧
      (∀ f ∈ F, OutwardFace m ((D.points P N).addF F) f) ∧
      ∀ e : ℕ → ℕ → ℤ, (∀ a b, e a b = -e b a) →
        bnd e F = path e s.north s.south a (meridianSize hz nb) -
          path e s.north s.south b (meridianSize hz nb) := by
  obtain ⟨i, j, hi, hj, hni, hnj⟩ := hp
  have hX0 : Side hx x 0 0.00001 := by
    rcases (hsec 0 hk).1.eq with e | e
    · exact Or.inl ⟨e, by norm_num⟩
    · exact Or.inr ⟨e, by norm_num⟩
  have hY0 : Side hy y 0 0.00001 := by
    rcases (hsec 0 hk).2.eq with e | e
    · exact Or.inl ⟨e, by norm_num⟩
    · exact Or.inr ⟨e, by norm_num⟩
  have h1 := does_position hb D (x, y, hz + r)
  have h2 := does_position hb (D.points [(x, y, hz + r)] []) (x, y, -(hz + r))
  rw [Delta.points_points] at h2
  set D0 := D.points [(x, y, hz + r), (x, y, -(hz + r))] [] with hD0
  have e0 : D.points ([(x, y, hz + r)] ++ [(x, y, -(hz + r))]) ([] ++ []) = D0 := rfl
  rw [e0] at h2
  set north : Vert := ⟨m.positionsNb + D.P.length, nn⟩ with hnorth
  set south : Vert := ⟨m.positionsNb + (D.points [(x, y, hz + r)] []).P.length, sn⟩ with hsouth
  have hgN : Good hx hy hz r m D0 north := by
    refine ⟨D.P.length, i, (x, y, hz + r), (0, 0, 1), rfl, hi, ?_, ?_, by
      simpa using onRoundedBox_of_sides hE hX0 hY0 (z := hz) (n3 := 1) (Or.inl ⟨rfl, by norm_num⟩)
        (by norm_num)⟩
    · simp [hD0, Delta.points]
    · simpa [hD0, Delta.points] using hni
  have hgS : Good hx hy hz r m D0 south := by
    refine ⟨D.P.length + 1, j, (x, y, -(hz + r)), (0, 0, -1), ?_, hj, ?_, ?_, by
      have := onRoundedBox_of_sides hE hX0 hY0 (z := -hz) (n3 := -1) (Or.inr ⟨rfl, by norm_num⟩)
        (by norm_num)
      rw [show -(hz + r) = -hz + r * -1 by ring]
      simpa using this⟩
    · simp [hsouth, Delta.points]
    · simp [hD0, Delta.points]
    · simpa [hD0, Delta.points] using hnj
  have hvN : VertexAt m D0 north (x, y, hz + r) (0, 0, 1) :=
    ⟨D.P.length, i, rfl, hi, by simp [hD0, Delta.points], by simpa [hD0, Delta.points] using hni⟩
  have hvS : VertexAt m D0 south (x, y, -(hz + r)) (0, 0, -1) :=
    ⟨D.P.length + 1, j, by simp [hsouth, Delta.points], hj, by simp [hD0, Delta.points],
      by simpa [hD0, Delta.points] using hnj⟩
  obtain ⟨st, D', hd, hlen, hlast, hms, hins, hmer, P, N, F, rfl, hF, hout, hnil, hbnd⟩ :=
    Does.foldlM_range (m := m)
    (xAddSectorStep hz r nb x y start step north south)
    (SectorInv hx hy hz r m D0 north south nb x y start step (meridianSize hz nb)) k.toNat
    (fun j st D' hj h => does_sectorStep hb hE nb start step hstep D0 ho north south hvN hvS hgN hgS j
      (hsec j (by omega)).1 (hsec j (by omega)).2 st D' h)
    (none, []) D0
    ⟨rfl, rfl, by simp, by simp, by simp, [], [], [], by simp [Delta.points, Delta.addF], by simp,
      by simp, by simp, by simp⟩
  have hne : st.2 ≠ [] := by
    intro h0; rw [h0] at hlen; simp at hlen; omega
  obtain ⟨a, ha⟩ := Option.isSome_iff_exists.1 (List.isSome_head?.2 hne)
  obtain ⟨b, hbl⟩ := Option.isSome_iff_exists.1 (List.getLast?_isSome.2 hne)
  have hD : (D0.points P N).addF F =
      (D.points ([(x, y, hz + r), (x, y, -(hz + r))] ++ P) ([] ++ N)).addF F := by
    rw [hD0, Delta.points_points]
  rw [hD] at hd hms hins hF hmer hout
  refine ⟨⟨north, south, st.2⟩, a, b, _, _, F, ?_, ⟨?_, ?_, ?_, ?_, ?_, ?_, ?_⟩, ?_, ?_, hF, ?_, ?_,
    ?_, ?_, hout, ?_⟩
  · unfold xAddSector
    refine (Does.assert D hE.r.ne').bind (f := fun _ => _) ?_
    refine h1.bind (f := fun _ => _) ?_
    refine h2.bind (f := fun _ => _) ?_
    exact hd.bind (f := fun _ => _) (Does.pure _ _)
  · rw [← hD]; exact (hgN.points P N).addF F
  · rw [← hD]; exact (hgS.points P N).addF F
  · rw [← List.head?_eq_getElem?]; exact ha
  · rw [← List.head?_eq_getElem?, List.head?_reverse]; exact hbl
  · exact hms a (List.mem_of_head? ha)
  · exact hms b (List.mem_of_getLast? hbl)
  · exact hins b (List.mem_of_getLast? hbl)
  · rw [← hD]
    have : At m D0 north (· = (x, y, hz + r)) :=
      ⟨D.P.length, (x, y, hz + r), rfl, by simp [hD0, Delta.points], rfl⟩
    exact this.mono P N F
  · rw [← hD]
    have : At m D0 south (· = (x, y, -(hz + r))) :=
      ⟨D.P.length + 1, (x, y, -(hz + r)), by simp [hsouth, Delta.points], by simp [hD0, Delta.points],
        rfl⟩
    exact this.mono P N F
  · rw [← hD]; exact hvN.mono P N F
  · rw [← hD]; exact hvS.mono P N F
  · have := hmer 0 a (by rw [← List.head?_eq_getElem?]; exact ha)
    simpa using this
  · refine hmer _ b ?_
    rw [List.getLast?_eq_getElem?, hlen] at hbl
    exact hbl
  · exact fun e he => hbnd e he a b ha hbl

/-! ### Joining the sectors -/

theorem joinFaces_length {s t : Sector} {a b : Vert} {n : ℕ} :
    ∀ f ∈ joinFaces s t a b n, f.length = 4 := by
  intro f hf
  simp only [joinFaces, List.mem_append, List.mem_singleton] at hf
  rcases hf with (rfl | hf) | rfl
  · rfl
  · exact ladder_length f hf
  · rfl

theorem read_ok {α : Type} {l : List α} {i : ℕ} {a : α} (h : l[i]? = some a) :
    Res.read l i = .ok a := by
  unfold Res.read; rw [h]

theorem does_join (hb : Base m recs) {D : Delta} (ho : D.o = none) {n : ℕ} (hn : 0 < n)
    {s t : Sector} {a b a' b' : Vert} (hs : SectorOk hx hy hz r m D n s a b)
    (ht : SectorOk hx hy hz r m D n t a' b') :
    Does m (xJoinSectors s t n) D () (D.addF (joinFaces s t b a' n)) := by
  unfold xJoinSectors
  rw [toNat_sub_one]
  refine (Does.lift D (read_ok hs.last)).bind (f := fun _ => _) ?_
  refine (Does.lift D (read_ok ht.first)).bind (f := fun _ => _) ?_
  have hla : ∀ i < n, Valid m D (b.add i) := fun i hi => (hs.last_good i hi).valid
  have hfb : ∀ i < n, Valid m D (a'.add i) := fun i hi => (ht.first_good i hi).valid
  refine (does_begin ho _).bind (f := fun _ => _) ?_
  refine (does_vert hb ht.north.valid _ _).bind (f := fun _ => _) ?_
  refine (does_vert hb hs.north.valid _ _).bind (f := fun _ => _) ?_
  refine (does_vert hb (v := b) (hla 0 hn) _ _).bind (f := fun _ => _) ?_
  refine (does_vert hb (v := a') (hfb 0 hn) _ _).bind (f := fun _ => _) ?_
  refine (does_ladder hb hla hfb _).bind (f := fun _ => _) ?_
  refine (does_vert hb (hfb (n - 1) (by omega)) _ _).bind (f := fun _ => _) ?_
  refine (does_vert hb (hla (n - 1) (by omega)) _ _).bind (f := fun _ => _) ?_
  refine (does_vert hb hs.south.valid _ _).bind (f := fun _ => _) ?_
  refine (does_vert hb ht.south.valid _ _).bind (f := fun _ => _) ?_
  have := does_end hb ho (mode := .quads) (whole_quads (joinFaces s t b a' n) joinFaces_length)
  rw [group_quads _ joinFaces_length] at this
  simp only [joinFaces, List.flatten_append, List.flatten_cons, List.flatten_nil,
    List.append_nil] at this
  simp only [joinFaces, List.nil_append, List.cons_append, List.append_assoc] at this ⊢
  exact this

theorem bnd_join (e : ℕ → ℕ → ℤ) (he : ∀ a b, e a b = -e b a) (s t : Sector) (a b : Vert) (n : ℕ) :
    bnd e (joinFaces s t a b n) =
      path e s.north s.south a n - path e t.north t.south b n +
      e t.north.p s.north.p + e s.south.p t.south.p := by
  unfold joinFaces path ladder
  rw [bnd_append, bnd_append, bnd_ladder e he, bnd_quad, bnd_quad]
  simp only [Vert.add]
  rw [he b.p t.north.p, he b.p a.p, he (b.p + (n - 1)) (a.p + (n - 1)), he t.south.p]
  ring

theorem mem_join {s t : Sector} {a b : Vert} {n : ℕ} (hn : 0 < n) (Q : Vert → Prop)
    (h1 : Q s.north) (h2 : Q s.south) (h3 : Q t.north) (h4 : Q t.south)
    (ha : ∀ i < n, Q (a.add i)) (hb : ∀ i < n, Q (b.add i)) :
    ∀ v ∈ (joinFaces s t a b n).flatten, Q v := by
  intro v hv
  obtain ⟨f, hf, hvf⟩ := List.mem_flatten.1 hv
  simp only [joinFaces, List.mem_append, List.mem_singleton] at hf
  rcases hf with (rfl | hf) | rfl
  · simp only [List.mem_cons, List.not_mem_nil, or_false] at hvf
    rcases hvf with rfl | rfl | rfl | rfl
    · exact h3
    · exact h1
    · exact ha 0 hn
    · exact hb 0 hn
  · obtain ⟨i, hi, rfl⟩ := List.mem_map.1 hf
    have hi := List.mem_range.1 hi
    simp only [quadAt, List.mem_cons, List.not_mem_nil, or_false] at hvf
    rcases hvf with rfl | rfl | rfl | rfl
    · exact hb _ (by omega)
    · exact ha _ (by omega)
    · exact ha _ (by omega)
    · exact hb _ (by omega)
  · simp only [List.mem_cons, List.not_mem_nil, or_false] at hvf
    rcases hvf with rfl | rfl | rfl | rfl
    · exact hb _ (by omega)
    · exact ha _ (by omega)
    · exact h2
    · exact h4

theorem SectorOk.addF {D : Delta} {n : ℕ} {s : Sector} {a b : Vert}
    (h : SectorOk hx hy hz r m D n s a b) (F : List (List Vert)) :
    SectorOk hx hy hz r m (D.addF F) n s a b := ⟨h.1, h.2, h.3, h.4, h.5, h.6, h.7⟩

theorem good_join {D : Delta} {n : ℕ} (hn : 0 < n)
    {s t : Sector} {a b a' b' : Vert} (hs : SectorOk hx hy hz r m D n s a b)
    (ht : SectorOk hx hy hz r m D n t a' b') :
    ∀ v ∈ (joinFaces s t b a' n).flatten, Good hx hy hz r m D v :=
  mem_join hn _ hs.north hs.south ht.north ht.south hs.last_good ht.first_good

theorem does_forM_addF {β : Type} (D : Delta) (f : β → MeshM Unit)
    (Fs : β → List (List Vert)) (is : List β)
    (hf : ∀ i ∈ is, ∀ G, Does m (f i) (D.addF G) () (D.addF (G ++ Fs i))) (G : List (List Vert)) :
    Does m (is.forM f) (D.addF G) () (D.addF (G ++ is.flatMap Fs)) := by
  induction is generalizing G with
  | nil => simpa using Does.pure () (D.addF G)
  | cons i is ih =>
    have h1 := hf i (by simp) G
    have h2 := ih (fun j hj => hf j (by simp [hj])) (G ++ Fs i)
    rw [List.append_assoc] at h2
    rw [List.flatMap_cons]
    exact h1.bind h2

theorem Delta.addF_nil (D : Delta) : D.addF [] = D := by simp [Delta.addF]

theorem range_map_get {α : Type} (s : ℕ → α) (k i : ℕ) (hi : i < k) :
    ((List.range k).map s)[i]? = some (s i) := by
  simp [hi]

/-- The polygons joining a cycle of sectors. Not in /repo: specification. -/
def cycleFaces (k : ℕ) (s : ℕ → Sector) (A B : ℕ → Vert) (n : ℕ) : List (List Vert) :=
  (List.range k).flatMap (fun i =>
    joinFaces (s i) (s ((i + 1) % k)) (B i) (A ((i + 1) % k)) n) ++
  if k ≥ 3 then [(List.range k).map fun i => (s i).north,
    ((List.range k).map fun i => (s i).south).reverse] else []

theorem does_joinAll (hb : Base m recs) {D : Delta} (ho : D.o = none) {n : ℕ} (hn : 0 < n)
    (k : ℕ) (hk : 0 < k) (s : ℕ → Sector) (A B : ℕ → Vert)
    (hs : ∀ i < k, SectorOk hx hy hz r m D n (s i) (A i) (B i)) :
    Does m (xJoinAll ((List.range k).map s) n) D () (D.addF (cycleFaces k s A B n)) := by
  unfold xJoinAll
  have hlen : ((List.range k).map s).length = k := by simp
  rw [hlen]
  have h1 := does_forM_addF (m := m) D (fun i => do
    let s' ← MeshM.lift (Res.read ((List.range k).map s) i)
    let t ← MeshM.lift (Res.read ((List.range k).map s) ((i + 1) % k))
    xJoinSectors s' t n)
    (fun i => joinFaces (s i) (s ((i + 1) % k)) (B i) (A ((i + 1) % k)) n) (List.range k) (by
      intro i hi G
      have hi : i < k := List.mem_range.1 hi
      have hi' : (i + 1) % k < k := Nat.mod_lt _ hk
      refine (Does.lift _ (read_ok (range_map_get s k i hi))).bind (f := fun _ => _) ?_
      refine (Does.lift _ (read_ok (range_map_get s k _ hi'))).bind (f := fun _ => _) ?_
      have := does_join hb (D := D.addF G) ho hn ((hs i hi).addF G) ((hs _ hi').addF G)
      rwa [Delta.addF_addF] at this) []
  rw [Delta.addF_nil, List.nil_append] at h1
  refine h1.bind (f := fun _ => _) ?_
  unfold cycleFaces
  by_cases h3 : k ≥ 3
  · rw [if_pos h3, if_pos h3]
    set D1 := D.addF ((List.range k).flatMap (fun i =>
      joinFaces (s i) (s ((i + 1) % k)) (B i) (A ((i + 1) % k)) n)) with hD1
    have ho1 : D1.o = none := ho
    have g1 : ∀ b ∈ (List.range k).map s, Valid m D1 b.north := by
      intro b hb'
      obtain ⟨i, hi, rfl⟩ := List.mem_map.1 hb'
      exact (hs i (List.mem_range.1 hi)).north.valid
    have g2 : ∀ b ∈ ((List.range k).map s).reverse, Valid m D1 b.south := by
      intro b hb'
      obtain ⟨i, hi, rfl⟩ := List.mem_map.1 (List.mem_reverse.1 hb')
      exact (hs i (List.mem_range.1 hi)).south.valid
    refine (does_begin ho1 _).bind (f := fun _ => _) ?_
    refine (does_forM D1 .polygon (fun b => xAddVert b.north) (fun b => [b.north]) _
      (fun b hb' l => does_vert hb (g1 b hb') _ l) []).bind (f := fun _ => _) ?_
    refine (does_end hb ho1 (by simp [Whole])).bind (f := fun _ => _) ?_
    refine (does_begin (by exact ho1) _).bind (f := fun _ => _) ?_
    refine (does_forM _ .polygon (fun b : Sector => xAddVert b.south) (fun b => [b.south]) _
      (fun b hb' l => does_vert hb (by exact g2 b hb') _ l) []).bind (f := fun _ => _) ?_
    have := does_end hb (D := D1.addF (group .polygon ([] ++ ((List.range k).map s).flatMap fun b => [b.north])))
      ho1 (mode := .polygon)
      (l := [] ++ ((List.range k).map s).reverse.flatMap fun b => [b.south]) (by simp [Whole])
    have e1 : ∀ (f : Sector → Vert) (l : List Sector), (l.flatMap fun b => [f b]) = l.map f := by
      intro f l; induction l <;> simp_all
    refine (congrArg (Does m Mesh.end _ ()) ?_).mp this
    rw [hD1, Delta.addF_addF, Delta.addF_addF]
    have hk0 : ¬ k = 0 := by omega
    simp [e1, group, hk0, List.map_map, Function.comp_def, List.map_reverse]
  · rw [if_neg h3, if_neg h3, List.append_nil]
    exact Does.pure () _

theorem good_cycle {D : Delta} {n : ℕ} (hn : 0 < n) (k : ℕ) (s : ℕ → Sector)
    (A B : ℕ → Vert) (hs : ∀ i < k, SectorOk hx hy hz r m D n (s i) (A i) (B i)) :
    ∀ v ∈ (cycleFaces k s A B n).flatten, Good hx hy hz r m D v := by
  intro v hv
  unfold cycleFaces at hv
  rw [List.flatten_append, List.mem_append] at hv
  rcases hv with hv | hv
  · obtain ⟨f, hf, hvf⟩ := List.mem_flatten.1 hv
    obtain ⟨i, hi, hfi⟩ := List.mem_flatMap.1 hf
    have hi : i < k := List.mem_range.1 hi
    exact good_join hn (hs i hi) (hs _ (Nat.mod_lt _ (by omega))) v
      (List.mem_flatten.2 ⟨f, hfi, hvf⟩)
  · split_ifs at hv with h3
    · simp only [List.flatten_cons, List.flatten_nil, List.append_nil, List.mem_append,
        List.mem_map, List.mem_reverse, List.mem_range] at hv
      rcases hv with ⟨i, hi, rfl⟩ | ⟨i, hi, rfl⟩
      · exact (hs i hi).north
      · exact (hs i hi).south
    · simp at hv

theorem bnd_polygon4 (e : ℕ → ℕ → ℤ) (a b c d : Vert) (F : List (List Vert)) :
    bnd e ([a, b, c, d] :: F) = e a.p b.p + e b.p c.p + e c.p d.p + e d.p a.p + bnd e F := by
  rw [← bnd_quad, ← bnd_append]; rfl

/-- The polygons joining a cycle of 1, 2 or 4 sectors compensate the free edges of the
sectors. -/
theorem bnd_cycle (e : ℕ → ℕ → ℤ) (he : ∀ a b, e a b = -e b a) (k : ℕ)
    (hk : k = 1 ∨ k = 2 ∨ k = 4) (s : ℕ → Sector) (A B : ℕ → Vert) (n : ℕ) :
    bnd e (cycleFaces k s A B n) = ((List.range k).map fun i =>
      path e (s i).north (s i).south (B i) n - path e (s i).north (s i).south (A i) n).sum := by
  have hself : ∀ a, e a a = 0 := by intro a; have := he a a; omega
  rcases hk with rfl | rfl | rfl
  · have e1 : cycleFaces 1 s A B n = joinFaces (s 0) (s 0) (B 0) (A 0) n := by
      simp [cycleFaces]
    rw [e1, bnd_join e he, hself, hself]
    simp
  · have e1 : cycleFaces 2 s A B n = joinFaces (s 0) (s 1) (B 0) (A 1) n ++
        joinFaces (s 1) (s 0) (B 1) (A 0) n := by
      simp [cycleFaces, List.range_succ]
    rw [e1, bnd_append, bnd_join e he, bnd_join e he, he (s 0).north.p, he (s 1).south.p]
    simp [List.range_succ]
    ring
  · have e1 : cycleFaces 4 s A B n = joinFaces (s 0) (s 1) (B 0) (A 1) n ++
        joinFaces (s 1) (s 2) (B 1) (A 2) n ++ joinFaces (s 2) (s 3) (B 2) (A 3) n ++
        joinFaces (s 3) (s 0) (B 3) (A 0) n ++
        [[(s 0).north, (s 1).north, (s 2).north, (s 3).north],
         [(s 3).south, (s 2).south, (s 1).south, (s 0).south]] := by
      simp [cycleFaces, List.range_succ]
    rw [e1]
    simp only [bnd_append, bnd_join e he, bnd_polygon4]
    rw [he (s 1).north.p (s 0).north.p, he (s 2).north.p (s 1).north.p,
      he (s 3).north.p (s 2).north.p, he (s 0).north.p (s 3).north.p,
      he (s 3).south.p (s 2).south.p, he (s 2).south.p (s 1).south.p,
      he (s 1).south.p (s 0).south.p, he (s 0).south.p (s 3).south.p]
    simp [List.range_succ, bnd]
    ring

/-! ### The whole mesh -/

/-- The state after building the sectors `L` (with their first and last meridians, their corners,
and the azimuths of these meridians): helper of the proofs. Not in /repo: specification. -/
def Built (hx hy hz r : ℝ) (m : Mesh) (n nn sn : ℕ) (D0 : Delta)
    (nb : ℕ) (L : List (Sector × Vert × Vert × (ℝ × ℝ) × ℝ × ℝ)) (D' : Delta) : Prop :=
  D'.o = none ∧ Poles m D' nn sn ∧ (∀ x ∈ L, SectorOk hx hy hz r m D' n x.1 x.2.1 x.2.2.1 ∧
    At m D' x.1.north (· = (x.2.2.2.1.1, x.2.2.2.1.2, hz + r)) ∧
    At m D' x.1.south (· = (x.2.2.2.1.1, x.2.2.2.1.2, -(hz + r)))) ∧
  (∀ x ∈ L, VertexAt m D' x.1.north (x.2.2.2.1.1, x.2.2.2.1.2, hz + r) (0, 0, 1) ∧
    VertexAt m D' x.1.south (x.2.2.2.1.1, x.2.2.2.1.2, -(hz + r)) (0, 0, -1) ∧
    MeridianAt hz r m D' nb x.2.2.2.1.1 x.2.2.2.1.2 x.2.2.2.2.1 x.2.1 ∧
    MeridianAt hz r m D' nb x.2.2.2.1.1 x.2.2.2.1.2 x.2.2.2.2.2 x.2.2.1) ∧
  ∃ P N F, D' = (D0.points P N).addF F ∧ (∀ v ∈ F.flatten, Good hx hy hz r m D' v) ∧
    (∀ f ∈ F, OutwardFace m D' f) ∧
    ∀ e : ℕ → ℕ → ℤ, (∀ a b, e a b = -e b a) → bnd e F = (L.map fun x =>
      path e x.1.north x.1.south x.2.1 n - path e x.1.north x.1.south x.2.2.1 n).sum

theorem built_step (hb : Base m recs) (hE : Ext hx hy hz r) {x y : ℝ} (nb : ℕ) (start step : ℝ)
    (hstep : 0 < Real.sin step) (k : ℤ) (hk : 0 < k)
    (hsec : ∀ j : ℕ, (j : ℤ) < k → Side hx x (Real.cos (start + j * step)) 0.00001 ∧
      Side hy y (Real.sin (start + j * step)) 0.00001)
    {nn sn : ℕ} {D0 D' : Delta} {L : List (Sector × Vert × Vert × (ℝ × ℝ) × ℝ × ℝ)}
    (h : Built hx hy hz r m (meridianSize hz nb) nn sn D0 nb L D') :
    ∃ s a b D'', Does m (xAddSector hz r nb x y start step k nn sn) D' s D'' ∧
      Built hx hy hz r m (meridianSize hz nb) nn sn D0 nb
        (L ++ [(s, a, b, (x, y), start, start + ((k.toNat - 1 : ℕ) : ℝ) * step)]) D'' := by
  obtain ⟨ho, hp, hL, hV, P, N, F, rfl, hF, hout, hbnd⟩ := h
  obtain ⟨s, a, b, P', N', F', hd, hs, hsn, hss, hF', v1, v2, v3, v4, hout', hbnd'⟩ :=
    does_sector hb hE nb start step hstep k hk hsec _ ho hp
  refine ⟨s, a, b, _, hd, ho, hp.mono P' N' F', ?_, ?_, P ++ P', N ++ N', F ++ F', ?_, ?_, ?_, ?_⟩
  · intro x hx'
    rcases List.mem_append.1 hx' with hx' | hx'
    · exact ⟨(hL x hx').1.mono P' N' F', (hL x hx').2.1.mono P' N' F', (hL x hx').2.2.mono P' N' F'⟩
    · rw [List.mem_singleton.1 hx']; exact ⟨hs, hsn, hss⟩
  · intro x hx'
    rcases List.mem_append.1 hx' with hx' | hx'
    · obtain ⟨w1, w2, w3, w4⟩ := hV x hx'
      exact ⟨w1.mono P' N' F', w2.mono P' N' F', w3.mono P' N' F', w4.mono P' N' F'⟩
    · rw [List.mem_singleton.1 hx']; exact ⟨v1, v2, v3, v4⟩
  · rw [Delta.addF_points, Delta.points_points, Delta.addF_addF]
  · intro v hv
    rw [List.flatten_append, List.mem_append] at hv
    rcases hv with hv | hv
    · exact ((hF v hv).points P' N').addF F'
    · exact hF' v hv
  · intro f hf
    rcases List.mem_append.1 hf with hf | hf
    · exact (hout f hf).mono P' N' F'
    · exact hout' f hf
  · intro e he
    rw [bnd_append, hbnd e he, hbnd' e he]
    simp

/-- The polygons of a whole rounded box: helper of the proofs. Not in /repo: specification. -/
def Finished (hx hy hz r : ℝ) (m : Mesh) (D : Delta) : Prop :=
  D.o = none ∧ D.F ≠ [] ∧ (∀ v ∈ D.F.flatten, Good hx hy hz r m D v) ∧
  (∀ x y, (x = hx ∨ x = -hx) → (y = hy ∨ y = -hy) →
    (∃ v ∈ D.F.flatten, At m D v (· = (x, y, hz + r))) ∧
    ∃ v ∈ D.F.flatten, At m D v (· = (x, y, -(hz + r)))) ∧
  (hz ≠ 0 → ∃ v ∈ D.F.flatten, At m D v (Inside hx hy hz r)) ∧
  ∀ e : ℕ → ℕ → ℤ, (∀ a b, e a b = -e b a) → bnd e D.F = 0

theorem built_finish (hb : Base m recs) {nb nn sn k : ℕ} (hk : k = 1 ∨ k = 2 ∨ k = 4) {D0 D' : Delta}
    (hF0 : D0.F = []) (hE : Ext hx hy hz r) (T : Prop)
    (x : ℕ → Sector × Vert × Vert × (ℝ × ℝ) × ℝ × ℝ)
    (hcov : ∀ x' y', (x' = hx ∨ x' = -hx) → (y' = hy ∨ y' = -hy) → ∃ i < k, (x i).2.2.2.1 = (x', y'))
    (hahead : T → ∀ i < k, Ahead r (x i).2.2.2.1.1 (x i).2.2.2.1.2 (x i).2.2.2.2.2
      (x ((i + 1) % k)).2.2.2.1.1 (x ((i + 1) % k)).2.2.2.1.2 (x ((i + 1) % k)).2.2.2.2.1)
    (hrect : k = 4 → 0 < hx ∧ 0 < hy ∧ (x 0).2.2.2.1 = (hx, hy) ∧ (x 1).2.2.2.1 = (-hx, hy) ∧
      (x 2).2.2.2.1 = (-hx, -hy) ∧ (x 3).2.2.2.1 = (hx, -hy))
    (h : Built hx hy hz r m (meridianSize hz nb) nn sn D0 nb ((List.range k).map x) D') :
    ∃ D'', Does m (xJoinAll ((List.range k).map fun i => (x i).1)
        (xSectorNbAdditionalVertices hz nb)) D' () D'' ∧ Finished hx hy hz r m D'' ∧
        (T → ∀ f ∈ D''.F, OutwardFace m D'' f) := by
  obtain ⟨ho, hp, hL, hV, P, N, F, hD, hF, hout, hbnd⟩ := h
  have hV' := fun i (hi : i < k) => hV _ (List.mem_map.2 ⟨i, List.mem_range.2 hi, rfl⟩)
  have hs' := fun i (hi : i < k) => hL _ (List.mem_map.2 ⟨i, List.mem_range.2 hi, rfl⟩)
  have hs : ∀ i < k, SectorOk hx hy hz r m D' (meridianSize hz nb) (x i).1 (x i).2.1 (x i).2.2.1 :=
    fun i hi => (hs' i hi).1
  have hd := does_joinAll hb ho (meridianSize_pos hz nb) k (by omega) _ _ _ hs
  rw [meridianSize_cast]
  have hFD : D'.F = F := by rw [hD]; simp [Delta.addF, Delta.points, hF0]
  have hmem : ∀ i < k, ∀ v ∈ (joinFaces (x i).1 (x ((i + 1) % k)).1 (x i).2.2.1
      (x ((i + 1) % k)).2.1 (meridianSize hz nb)).flatten,
      v ∈ (D'.F ++ cycleFaces k (fun i => (x i).1) (fun i => (x i).2.1)
        (fun i => (x i).2.2.1) (meridianSize hz nb)).flatten := by
    intro i hi v hv
    obtain ⟨f, hf, hvf⟩ := List.mem_flatten.1 hv
    refine List.mem_flatten.2 ⟨f, List.mem_append_right _ (List.mem_append_left _ ?_), hvf⟩
    exact List.mem_flatMap.2 ⟨i, List.mem_range.2 hi, hf⟩
  refine ⟨_, hd, ⟨ho, ?_, ?_, ?_, ?_, ?_⟩, ?_⟩
  · obtain ⟨k', rfl⟩ : ∃ k', k = k' + 1 := ⟨k - 1, by omega⟩
    show D'.F ++ _ ≠ []
    simp [cycleFaces, List.range_succ_eq_map, joinFaces]
  · intro v hv
    have hv' : v ∈ (D'.F ++ cycleFaces k (fun i => (x i).1) (fun i => (x i).2.1)
        (fun i => (x i).2.2.1) (meridianSize hz nb)).flatten := hv
    rw [List.flatten_append, List.mem_append, hFD] at hv'
    rcases hv' with hv' | hv'
    · exact (hF v hv').addF _
    · exact (good_cycle (meridianSize_pos hz nb) k _ _ _ hs v hv').addF _
  · intro x' y' hx' hy'
    obtain ⟨i, hi, e⟩ := hcov x' y' hx' hy'
    obtain ⟨-, h1, h2⟩ := hs' i hi
    rw [e] at h1 h2
    exact ⟨⟨_, hmem i hi _ (by simp [joinFaces]), h1⟩, ⟨_, hmem i hi _ (by simp [joinFaces]), h2⟩⟩
  · intro h0
    have hk0 : 0 < k := by omega
    obtain ⟨i, hi, hat⟩ := (hs 0 hk0).last_inside h0
    refine ⟨_, hmem 0 hk0 (Vert.add (x 0).2.2.1 i) ?_, hat⟩
    have hn2 : 2 ≤ meridianSize hz nb := by
      unfold meridianSize
      rw [if_neg h0]
      omega
    rw [joinFaces, List.flatten_append, List.flatten_append, List.mem_append, List.mem_append]
    refine Or.inl (Or.inr (List.mem_flatten.2 ?_))
    rcases Nat.eq_zero_or_pos i with h | h
    · subst h
      exact ⟨_, List.mem_map.2 ⟨0, List.mem_range.2 (by omega), rfl⟩, by simp [quadAt]⟩
    · refine ⟨_, List.mem_map.2 ⟨i - 1, List.mem_range.2 (by omega), rfl⟩, ?_⟩
      rw [quadAt, show 1 + (i - 1) = i by omega]
      simp
  · intro e he
    show bnd e (D'.F ++ _) = 0
    rw [bnd_append, hFD, hbnd e he, bnd_cycle e he k hk, List.map_map]
    rcases hk with rfl | rfl | rfl <;> simp [List.range_succ] <;> ring
  · intro hT f hf
    have hf' : f ∈ D'.F ++ cycleFaces k (fun i => (x i).1) (fun i => (x i).2.1)
        (fun i => (x i).2.2.1) (meridianSize hz nb) := hf
    rw [hFD, List.mem_append] at hf'
    suffices hs : OutwardFace m D' f by
      have := hs.mono [] [] (cycleFaces k (fun i => (x i).1) (fun i => (x i).2.1)
        (fun i => (x i).2.2.1) (meridianSize hz nb))
      simpa [Delta.points] using this
    rcases hf' with hf' | hf'
    · exact hout f hf'
    · unfold cycleFaces at hf'
      rw [List.mem_append] at hf'
      rcases hf' with hf' | hf'
      · obtain ⟨i, hi, hfi⟩ := List.mem_flatMap.1 hf'
        have hi : i < k := List.mem_range.1 hi
        obtain ⟨v1, v2, -, v4⟩ := hV' i hi
        obtain ⟨w1, w2, w3, -⟩ := hV' ((i + 1) % k) (Nat.mod_lt _ (by omega))
        exact out_join hE v4 w3 v1 v2 w1 w2 (hahead hT i hi) f hfi
      · split_ifs at hf' with h3
        · obtain rfl : k = 4 := by omega
          obtain ⟨px, py, e0, e1, e2, e3⟩ := hrect rfl
          have n0 := hV' 0 (by norm_num)
          have n1 := hV' 1 (by norm_num)
          have n2 := hV' 2 (by norm_num)
          have n3 := hV' 3 (by norm_num)
          rw [e0] at n0
          rw [e1] at n1
          rw [e2] at n2
          rw [e3] at n3
          have pp : 0 < hx * hy := by positivity
          simp only [List.mem_cons, List.not_mem_nil, or_false] at hf'
          rcases hf' with rfl | rfl
          · refine ⟨[(_, _), (_, _), (_, _), (_, _)], .cons n0.1 (.cons n1.1 (.cons n2.1
              (.cons n3.1 .nil))), ?_⟩
            intro q hq
            have hq2 : q.2 = (0, 0, 1) := by
              simp only [List.mem_cons, List.not_mem_nil, or_false] at hq
              rcases hq with rfl | rfl | rfl | rfl <;> rfl
            rw [hq2]
            simp only [List.map_cons, List.map_nil]
            rw [signedArea_quad]
            simp only [dot3, cross3]
            nlinarith
          · refine ⟨[(_, _), (_, _), (_, _), (_, _)], .cons n3.2.1 (.cons n2.2.1 (.cons n1.2.1
              (.cons n0.2.1 .nil))), ?_⟩
            intro q hq
            have hq2 : q.2 = (0, 0, -1) := by
              simp only [List.mem_cons, List.not_mem_nil, or_false] at hq
              rcases hq with rfl | rfl | rfl | rfl <;> rfl
            rw [hq2]
            simp only [List.map_cons, List.map_nil]
            rw [signedArea_quad]
            simp only [dot3, cross3]
            nlinarith
        · simp at hf'

/-- An azimuth computed with the single-precision pi: the cosine and the sine are those of the
exact azimuth within a hundred-thousandth. -/
theorem azimuth_near (c : ℝ) (h0 : -1 ≤ c) (h1 : c ≤ 2) :
    |Real.cos (c * piF) - Real.cos (c * Real.pi)| ≤ 0.00001 ∧
      |Real.sin (c * piF) - Real.sin (c * Real.pi)| ≤ 0.00001 := by
  have hd : |c * piF - c * Real.pi| ≤ 0.00001 := by
    have h1 := Real.pi_gt_d6
    have h2 := Real.pi_lt_d6
    rw [← mul_sub, abs_mul]
    have a1 : |c| ≤ 2 := abs_le.2 ⟨by linarith, by linarith⟩
    have a2 : |piF - Real.pi| ≤ 0.000002 := by
      unfold piF
      rw [abs_le]
      constructor <;> linarith
    calc |c| * |piF - Real.pi| ≤ 2 * 0.000002 := mul_le_mul a1 a2 (abs_nonneg _) (by norm_num)
      _ ≤ _ := by norm_num
  exact ⟨(Real.abs_cos_sub_cos_le _ _).trans hd, (Real.abs_sin_sub_sin_le _ _).trans hd⟩

theorem side_pos {h c n v d : ℝ} (hc : c = h) (hv : 0 ≤ v) (hn : |n - v| ≤ d) : Side h c n d :=
  Or.inl ⟨hc, by rw [abs_le] at hn; linarith [hn.1]⟩

theorem side_neg {h c n v d : ℝ} (hc : c = -h) (hv : v ≤ 0) (hn : |n - v| ≤ d) : Side h c n d :=
  Or.inr ⟨hc, by rw [abs_le] at hn; linarith [hn.2]⟩

theorem side_zero {h c n d : ℝ} (hd : 0 ≤ d) (h0 : h = 0) (hc : c = h ∨ c = -h) : Side h c n d := by
  have : c = 0 := by rcases hc with e | e <;> simp [e, h0]
  rcases le_total 0 n with hn | hn
  · exact Or.inl ⟨by rw [this, h0], by linarith⟩
  · exact Or.inr ⟨by rw [this, h0, neg_zero], by linarith⟩

/-- The azimuths of a sector, in half-turns: from `s`, over at most `w`. -/
theorem azimuth_eq (nb j : ℕ) (start s : ℝ) (hs : start = s * piF) :
    ∃ q : ℝ, start + j * (2 * piF / ((4 * ((nb : ℤ) + 1) : ℤ) : ℝ)) = (s + q) * piF ∧ 0 ≤ q ∧
      ((j : ℤ) < 4 * ((nb : ℤ) + 1) / 4 + 1 → q ≤ 1 / 2) ∧
      ((j : ℤ) < 4 * ((nb : ℤ) + 1) / 2 + 1 → q ≤ 1) := by
  have hn : (0 : ℝ) < nb + 1 := by positivity
  refine ⟨j / (2 * (nb + 1)), ?_, by positivity, fun h => ?_, fun h => ?_⟩
  · rw [hs]
    push_cast
    field_simp
    ring
  · rw [div_le_iff₀ (by positivity)]
    have : (j : ℝ) ≤ nb + 1 := by exact_mod_cast (by omega : (j : ℤ) ≤ nb + 1)
    linarith
  · rw [div_le_iff₀ (by positivity)]
    have : (j : ℝ) ≤ 2 * (nb + 1) := by exact_mod_cast (by omega : (j : ℤ) ≤ 2 * (nb + 1))
    linarith

theorem cos_pos_turn {c : ℝ} (h0 : -(1 / 2) ≤ c) (h1 : c ≤ 1 / 2) : 0 ≤ Real.cos (c * Real.pi) :=
  Real.cos_nonneg_of_neg_pi_div_two_le_of_le (by nlinarith [Real.pi_pos]) (by nlinarith [Real.pi_pos])

theorem cos_neg_turn {c : ℝ} (h0 : 1 / 2 ≤ c) (h1 : c ≤ 3 / 2) : Real.cos (c * Real.pi) ≤ 0 :=
  Real.cos_nonpos_of_pi_div_two_le_of_le (by nlinarith [Real.pi_pos]) (by nlinarith [Real.pi_pos])

theorem cos_last_turn {c : ℝ} (h0 : 3 / 2 ≤ c) (h1 : c ≤ 2) : 0 ≤ Real.cos (c * Real.pi) := by
  rw [show c * Real.pi = (c - 2) * Real.pi + 2 * Real.pi by ring, Real.cos_add_two_pi]
  exact cos_pos_turn (by linarith) (by linarith)

theorem sin_pos_turn {c : ℝ} (h0 : 0 ≤ c) (h1 : c ≤ 1) : 0 ≤ Real.sin (c * Real.pi) :=
  Real.sin_nonneg_of_nonneg_of_le_pi (by positivity) (by nlinarith [Real.pi_pos])

theorem sin_neg_turn {c : ℝ} (h0 : 1 ≤ c) (h1 : c ≤ 2) : Real.sin (c * Real.pi) ≤ 0 := by
  rw [show c * Real.pi = (c - 1) * Real.pi + Real.pi by ring, Real.sin_add_pi]
  linarith [sin_pos_turn (c := c - 1) (by linarith) (by linarith)]

theorem piF_near : Real.pi < piF ∧ piF < Real.pi + 0.00000009 := by
  have h1 := Real.pi_gt_d20
  have h2 := Real.pi_lt_d20
  unfold piF
  constructor <;> norm_num at * <;> linarith

theorem step_bounds (nb : ℕ) : 0 < 2 * piF / ((4 * ((nb : ℤ) + 1) : ℤ) : ℝ) ∧
    2 * piF / ((4 * ((nb : ℤ) + 1) : ℤ) : ℝ) ≤ piF / 2 := by
  have h := piF_near.1
  have hp := Real.pi_pos
  have hn : (0 : ℝ) ≤ nb := by positivity
  have h0 : 0 < piF := by linarith
  push_cast
  refine ⟨by positivity, ?_⟩
  rw [div_le_iff₀ (by positivity)]
  nlinarith [mul_nonneg h0.le hn]

theorem step_sin (nb : ℕ) : 0 < Real.sin (2 * piF / ((4 * ((nb : ℤ) + 1) : ℤ) : ℝ)) := by
  obtain ⟨h0, h1⟩ := step_bounds nb
  have h := piF_near.2
  have hp := Real.pi_gt_three
  exact Real.sin_pos_of_pos_of_lt_pi h0 (by linarith)

theorem last_step (nb : ℕ) (h : nb ≤ 1000000) : 0 < Real.sin (0 - (0 +
    (((4 * ((nb : ℤ) + 1)).toNat - 1 : ℕ) : ℝ) * (2 * piF / ((4 * ((nb : ℤ) + 1) : ℤ) : ℝ)))) := by
  obtain ⟨h0, h1⟩ := step_bounds nb
  have hp := Real.pi_gt_three
  obtain ⟨p0, p1⟩ := piF_near
  have hN : ((4 * ((nb : ℤ) + 1)).toNat - 1 : ℕ) = 4 * nb + 3 := by omega
  have hstep : 0.000001 ≤ 2 * piF / ((4 * ((nb : ℤ) + 1) : ℤ) : ℝ) := by
    have : (nb : ℝ) ≤ 1000000 := by exact_mod_cast h
    push_cast
    rw [le_div_iff₀ (by positivity)]
    linarith
  have e : ((4 * nb + 3 : ℕ) : ℝ) * (2 * piF / ((4 * ((nb : ℤ) + 1) : ℤ) : ℝ)) =
      2 * piF - 2 * piF / ((4 * ((nb : ℤ) + 1) : ℤ) : ℝ) := by
    have : (nb : ℝ) + 1 ≠ 0 := by positivity
    push_cast
    field_simp
    ring
  rw [hN, e, ← Real.sin_add_two_pi]
  apply Real.sin_pos_of_pos_of_lt_pi <;> linarith

theorem last_quarter (nb : ℕ) (start : ℝ) : start + (((4 * ((nb : ℤ) + 1) / 4 + 1).toNat - 1 : ℕ) : ℝ) *
    (2 * piF / ((4 * ((nb : ℤ) + 1) : ℤ) : ℝ)) = start + piF / 2 := by
  have hN : ((4 * ((nb : ℤ) + 1) / 4 + 1).toNat - 1 : ℕ) = nb + 1 := by omega
  have : (nb : ℝ) + 1 ≠ 0 := by positivity
  rw [hN]
  push_cast
  field_simp
  ring

theorem last_half (nb : ℕ) (start : ℝ) : start + (((4 * ((nb : ℤ) + 1) / 2 + 1).toNat - 1 : ℕ) : ℝ) *
    (2 * piF / ((4 * ((nb : ℤ) + 1) : ℤ) : ℝ)) = start + piF := by
  have hN : ((4 * ((nb : ℤ) + 1) / 2 + 1).toNat - 1 : ℕ) = 2 * (nb + 1) := by omega
  have : (nb : ℝ) + 1 ≠ 0 := by positivity
  rw [hN]
  push_cast
  field_simp
  ring

theorem turns : 0.99 ≤ Real.sin (piF / 2) ∧ Real.cos piF ≤ -0.99 ∧ Real.sin (3 * piF / 2) ≤ -0.99 ∧
    0.99 ≤ Real.cos (2 * piF) ∧ |Real.sin (2 * piF)| ≤ 0.0000002 := by
  have h1 := (azimuth_near (1 / 2) (by norm_num) (by norm_num)).2
  have h2 := (azimuth_near 1 (by norm_num) (by norm_num)).1
  have h3 := (azimuth_near (3 / 2) (by norm_num) (by norm_num)).2
  have h4 := (azimuth_near 2 (by norm_num) (by norm_num)).1
  rw [show 1 / 2 * piF = piF / 2 by ring, show 1 / 2 * Real.pi = Real.pi / 2 by ring,
    Real.sin_pi_div_two, abs_le] at h1
  rw [one_mul, one_mul, Real.cos_pi, abs_le] at h2
  rw [show 3 / 2 * piF = 3 * piF / 2 by ring, show 3 / 2 * Real.pi = Real.pi / 2 + Real.pi by ring,
    Real.sin_add_pi, Real.sin_pi_div_two, abs_le] at h3
  rw [Real.cos_two_pi, abs_le] at h4
  refine ⟨by linarith, by linarith, by linarith, by linarith, ?_⟩
  obtain ⟨p0, p1⟩ := piF_near
  rw [← Real.sin_sub_two_pi]
  have h0 : 0 ≤ 2 * piF - 2 * Real.pi := by linarith
  rw [abs_le]
  refine ⟨le_trans (by norm_num) (Real.sin_nonneg_of_nonneg_of_le_pi h0 (by linarith [Real.pi_gt_three])), ?_⟩
  linarith [Real.sin_le h0]

/-- From the last meridian of the lower side to the first of the upper one. -/
theorem ahead_last_y {r x h : ℝ} (hr : 0 < r) (hh : 0.000001 * r ≤ h) :
    Ahead r x (-h) (2 * piF) x h 0 := by
  obtain ⟨-, -, -, t4, t5⟩ := turns
  have h0 : 0 < h := by nlinarith
  have hc := Real.cos_le_one (2 * piF)
  refine ahead_near (d := 2 * h) hr (by linarith) ?_ ?_ ?_
  · simp only [along, sub_self, zero_mul, sub_zero]
    rw [abs_le]; constructor <;> nlinarith
  · simp only [along, sub_self, zero_mul, sub_zero, Real.cos_zero]
    rw [abs_le]; constructor <;> nlinarith
  · rw [zero_sub, Real.sin_neg, abs_neg]; exact t5

/-- From the last meridian of the left side to the first of the right one. -/
theorem ahead_last_x {r y h : ℝ} (hr : 0 < r) (hh : 0.000001 * r ≤ h) :
    Ahead r (-h) y (3 * piF / 2) h y (-piF / 2) := by
  obtain ⟨t1, -, t3, -, t5⟩ := turns
  have h0 : 0 < h := by nlinarith
  have hc := Real.sin_le_one (piF / 2)
  have hc' := Real.neg_one_le_sin (3 * piF / 2)
  refine ahead_near (d := 2 * h) hr (by linarith) ?_ ?_ ?_
  · simp only [along, sub_self, zero_mul, zero_sub]
    rw [abs_le]; constructor <;> nlinarith
  · simp only [along, sub_self, zero_mul, zero_sub]
    rw [neg_div, Real.sin_neg, abs_le]; constructor <;> nlinarith
  · rw [show -piF / 2 - 3 * piF / 2 = -(2 * piF) by ring, Real.sin_neg, abs_neg]; exact t5

theorem ahead_top {r y h : ℝ} (h0 : 0 < h) : Ahead r h y (piF / 2) (-h) y (piF / 2) := by
  have t1 := turns.1
  apply ahead_slide
  simp only [along, sub_self, zero_mul, zero_sub]
  nlinarith

theorem ahead_left {r x h : ℝ} (h0 : 0 < h) : Ahead r x h piF x (-h) piF := by
  have t2 := turns.2.1
  apply ahead_slide
  simp only [along, sub_self, zero_mul, sub_zero]
  nlinarith

theorem ahead_bottom {r y h : ℝ} (h0 : 0 < h) :
    Ahead r (-h) y (3 * piF / 2) h y (3 * piF / 2) := by
  have t3 := turns.2.2.1
  apply ahead_slide
  simp only [along, sub_self, zero_mul, zero_sub]
  nlinarith

theorem does_rounded (hb : Base m recs) (hE : Ext hx hy hz r) (nb : ℕ) : ∃ D, Does m (addRoundedBoxMesh hx hy hz r nb) ⟨[], [], [], none⟩ () D ∧
      Finished hx hy hz r m D ∧
      (nb ≤ 1000000 ∧ (hx = 0 ∨ 0.000001 * r ≤ hx) ∧ (hy = 0 ∨ 0.000001 * r ≤ hy) →
        ∀ f ∈ D.F, OutwardFace m D f) := by
  set D0 : Delta := ⟨[], [], [], none⟩ with hD0
  have n1 := does_normal hb D0 (0, 0, 1) (by norm_num)
  have n2 := does_normal hb (D0.points [] [(0, 0, 1)]) (0, 0, -1) (by norm_num)
  rw [Delta.points_points] at n2
  set D1 := D0.points ([] ++ []) ([(0, 0, 1)] ++ [(0, 0, -1)]) with hD1
  set nn := m.normalsNb + D0.N.length with hnn
  set sn := m.normalsNb + (D0.points [] [(0, 0, 1)]).N.length with hsn
  have hB : Built hx hy hz r m (meridianSize hz nb) nn sn D1 nb [] D1 :=
    ⟨rfl, ⟨0, 1, rfl, rfl, rfl, rfl⟩, by simp, by simp, [], [], [],
      by simp [Delta.points, Delta.addF], by simp, by simp, by simp [bnd]⟩
  have run : ∀ {L : List Sector} {D2 D3 : Delta}, Does m (xAddSectors hx hy hz r nb nn sn) D1 L D2 →
      Does m (xJoinAll L (xSectorNbAdditionalVertices hz nb)) D2 () D3 →
      Does m (addRoundedBoxMesh hx hy hz r nb) D0 () D3 := by
    intro L D2 D3 h2 h3
    unfold addRoundedBoxMesh
    refine (Does.assert D0 hE.x).bind (f := fun _ => _) ?_
    refine (Does.assert D0 hE.y).bind (f := fun _ => _) ?_
    refine (Does.assert D0 hE.z).bind (f := fun _ => _) ?_
    rw [if_neg hE.r.ne']
    refine (Does.assert D0 hE.r).bind (f := fun _ => _) ?_
    exact n1.bind (f := fun _ => _) (n2.bind (f := fun _ => _) (h2.bind (f := fun _ => _) h3))
  have pos1 : (0 : ℤ) < 4 * ((nb : ℤ) + 1) := by omega
  have pos2 : (0 : ℤ) < 4 * ((nb : ℤ) + 1) / 2 + 1 := by omega
  have pos4 : (0 : ℤ) < 4 * ((nb : ℤ) + 1) / 4 + 1 := by omega
  have tiny : (0 : ℝ) ≤ 0.00001 := by norm_num
  by_cases c1 : hx = 0 ∧ hy = 0
  · obtain ⟨s, a, b, D2, hd, hB2⟩ := built_step hb hE (x := hx) (y := hy) nb 0
      (2 * piF / ((4 * ((nb : ℤ) + 1) : ℤ) : ℝ)) (step_sin nb) _ pos1 (fun j _ => ⟨side_zero tiny c1.1 (Or.inl rfl), side_zero tiny c1.2 (Or.inl rfl)⟩) hB
    obtain ⟨D3, hd3, hf⟩ := built_finish hb (k := 1) (Or.inl rfl) rfl hE
      (nb ≤ 1000000 ∧ (hx = 0 ∨ 0.000001 * r ≤ hx) ∧ (hy = 0 ∨ 0.000001 * r ≤ hy))
      (fun _ => (s, a, b, (hx, hy), _, _))
      (by
        rintro x' y' hx' hy'
        rw [c1.1, neg_zero, or_self] at hx'
        rw [c1.2, neg_zero, or_self] at hy'
        exact ⟨0, by norm_num, by simp [hx', hy', c1.1, c1.2]⟩)
      (fun hT i _ => ahead_turn (last_step nb hT.1)) (by simp) hB2
    refine ⟨D3, run ?_ hd3, hf⟩
    unfold xAddSectors
    dsimp only
    rw [if_pos c1]
    exact hd.bind (f := fun _ => _) (Does.pure _ _)
  by_cases c2 : hx = 0
  · obtain ⟨s, a, b, D2, hd, hB2⟩ := built_step hb hE (x := hx) (y := hy) nb 0
      (2 * piF / ((4 * ((nb : ℤ) + 1) : ℤ) : ℝ)) (step_sin nb) _ pos2 (by
        intro j hj
        obtain ⟨q, e, q0, q4, q2⟩ := azimuth_eq nb j 0 0 (by ring)
        have q1 := q2 hj
        rw [e]
        have hn := azimuth_near (0 + q) (by linarith) (by linarith)
        exact ⟨side_zero tiny c2 (Or.inl rfl), side_pos rfl (sin_pos_turn (by linarith) (by linarith)) hn.2⟩) hB
    obtain ⟨s', a', b', D3, hd', hB3⟩ := built_step hb hE (x := hx) (y := (-hy)) nb piF
      (2 * piF / ((4 * ((nb : ℤ) + 1) : ℤ) : ℝ)) (step_sin nb) _ pos2 (by
        intro j hj
        obtain ⟨q, e, q0, q4, q2⟩ := azimuth_eq nb j piF 1 (by ring)
        have q1 := q2 hj
        rw [e]
        have hn := azimuth_near (1 + q) (by linarith) (by linarith)
        exact ⟨side_zero tiny c2 (Or.inl rfl), side_neg rfl (sin_neg_turn (by linarith) (by linarith)) hn.2⟩) hB2
    obtain ⟨D4, hd4, hf⟩ := built_finish hb (k := 2) (Or.inr (Or.inl rfl)) rfl hE
      (nb ≤ 1000000 ∧ (hx = 0 ∨ 0.000001 * r ≤ hx) ∧ (hy = 0 ∨ 0.000001 * r ≤ hy))
      (fun i => match i with | 0 => (s, a, b, (hx, hy), _, _) | _ => (s', a', b', (hx, -hy), _, _))
      (by
        rintro x' y' hx' (rfl | rfl)
        · exact ⟨0, by norm_num, by rcases hx' with e | e <;> simp [e, c2]⟩
        · exact ⟨1, by norm_num, by rcases hx' with e | e <;> simp [e, c2]⟩)
      (fun hT i hi => by
        have p := lt_of_le_of_ne hE.y (Ne.symm fun h => c1 ⟨c2, h⟩)
        have hi : i = 0 ∨ i = 1 := by omega
        rcases hi with rfl | rfl
        · show Ahead r hx hy (0 + _) hx (-hy) piF
          rw [last_half, zero_add]
          exact ahead_left p
        · show Ahead r hx (-hy) (piF + _) hx hy 0
          rw [last_half, ← two_mul]
          exact ahead_last_y hE.r (hT.2.2.resolve_left p.ne')) (by simp) hB3
    refine ⟨D4, run ?_ hd4, hf⟩
    unfold xAddSectors
    dsimp only
    rw [if_neg c1, if_pos c2]
    exact hd.bind (f := fun _ => _) (hd'.bind (f := fun _ => _) (Does.pure _ _))
  by_cases c3 : hy = 0
  · obtain ⟨s, a, b, D2, hd, hB2⟩ := built_step hb hE (x := hx) (y := hy) nb (-piF / 2)
      (2 * piF / ((4 * ((nb : ℤ) + 1) : ℤ) : ℝ)) (step_sin nb) _ pos2 (by
        intro j hj
        obtain ⟨q, e, q0, q4, q2⟩ := azimuth_eq nb j (-piF / 2) (-(1 / 2)) (by ring)
        have q1 := q2 hj
        rw [e]
        have hn := azimuth_near ((-(1 / 2)) + q) (by linarith) (by linarith)
        exact ⟨side_pos rfl (cos_pos_turn (by linarith) (by linarith)) hn.1, side_zero tiny c3 (Or.inl rfl)⟩) hB
    obtain ⟨s', a', b', D3, hd', hB3⟩ := built_step hb hE (x := (-hx)) (y := hy) nb (piF / 2)
      (2 * piF / ((4 * ((nb : ℤ) + 1) : ℤ) : ℝ)) (step_sin nb) _ pos2 (by
        intro j hj
        obtain ⟨q, e, q0, q4, q2⟩ := azimuth_eq nb j (piF / 2) (1 / 2) (by ring)
        have q1 := q2 hj
        rw [e]
        have hn := azimuth_near ((1 / 2) + q) (by linarith) (by linarith)
        exact ⟨side_neg rfl (cos_neg_turn (by linarith) (by linarith)) hn.1, side_zero tiny c3 (Or.inl rfl)⟩) hB2
    obtain ⟨D4, hd4, hf⟩ := built_finish hb (k := 2) (Or.inr (Or.inl rfl)) rfl hE
      (nb ≤ 1000000 ∧ (hx = 0 ∨ 0.000001 * r ≤ hx) ∧ (hy = 0 ∨ 0.000001 * r ≤ hy))
      (fun i => match i with | 0 => (s, a, b, (hx, hy), _, _) | _ => (s', a', b', (-hx, hy), _, _))
      (by
        rintro x' y' (rfl | rfl) hy'
        · exact ⟨0, by norm_num, by rcases hy' with e | e <;> simp [e, c3]⟩
        · exact ⟨1, by norm_num, by rcases hy' with e | e <;> simp [e, c3]⟩)
      (fun hT i hi => by
        have p := lt_of_le_of_ne hE.x (Ne.symm c2)
        have hi : i = 0 ∨ i = 1 := by omega
        rcases hi with rfl | rfl
        · show Ahead r hx hy (-piF / 2 + _) (-hx) hy (piF / 2)
          rw [last_half, show -piF / 2 + piF = piF / 2 by ring]
          exact ahead_top p
        · show Ahead r (-hx) hy (piF / 2 + _) hx hy (-piF / 2)
          rw [last_half, show piF / 2 + piF = 3 * piF / 2 by ring]
          exact ahead_last_x hE.r (hT.2.1.resolve_left p.ne')) (by simp) hB3
    refine ⟨D4, run ?_ hd4, hf⟩
    unfold xAddSectors
    dsimp only
    rw [if_neg c1, if_neg c2, if_pos c3]
    exact hd.bind (f := fun _ => _) (hd'.bind (f := fun _ => _) (Does.pure _ _))
  · obtain ⟨s, a, b, D2, hd, hB2⟩ := built_step hb hE (x := hx) (y := hy) nb 0
      (2 * piF / ((4 * ((nb : ℤ) + 1) : ℤ) : ℝ)) (step_sin nb) _ pos4 (by
        intro j hj
        obtain ⟨q, e, q0, q4, q2⟩ := azimuth_eq nb j 0 0 (by ring)
        have q1 := q4 hj
        rw [e]
        have hn := azimuth_near (0 + q) (by linarith) (by linarith)
        exact ⟨side_pos rfl (cos_pos_turn (by linarith) (by linarith)) hn.1, side_pos rfl (sin_pos_turn (by linarith) (by linarith)) hn.2⟩) hB
    obtain ⟨s', a', b', D3, hd', hB3⟩ := built_step hb hE (x := (-hx)) (y := hy) nb (piF / 2)
      (2 * piF / ((4 * ((nb : ℤ) + 1) : ℤ) : ℝ)) (step_sin nb) _ pos4 (by
        intro j hj
        obtain ⟨q, e, q0, q4, q2⟩ := azimuth_eq nb j (piF / 2) (1 / 2) (by ring)
        have q1 := q4 hj
        rw [e]
        have hn := azimuth_near ((1 / 2) + q) (by linarith) (by linarith)
        exact ⟨side_neg rfl (cos_neg_turn (by linarith) (by linarith)) hn.1, side_pos rfl (sin_pos_turn (by linarith) (by linarith)) hn.2⟩) hB2
    obtain ⟨s2, a2, b2, D4, hd2, hB4⟩ := built_step hb hE (x := (-hx)) (y := (-hy)) nb piF
      (2 * piF / ((4 * ((nb : ℤ) + 1) : ℤ) : ℝ)) (step_sin nb) _ pos4 (by
        intro j hj
        obtain ⟨q, e, q0, q4, q2⟩ := azimuth_eq nb j piF 1 (by ring)
        have q1 := q4 hj
        rw [e]
        have hn := azimuth_near (1 + q) (by linarith) (by linarith)
        exact ⟨side_neg rfl (cos_neg_turn (by linarith) (by linarith)) hn.1, side_neg rfl (sin_neg_turn (by linarith) (by linarith)) hn.2⟩) hB3
    obtain ⟨s3, a3, b3, D5, hd3, hB5⟩ := built_step hb hE (x := hx) (y := (-hy)) nb (3 * piF / 2)
      (2 * piF / ((4 * ((nb : ℤ) + 1) : ℤ) : ℝ)) (step_sin nb) _ pos4 (by
        intro j hj
        obtain ⟨q, e, q0, q4, q2⟩ := azimuth_eq nb j (3 * piF / 2) (3 / 2) (by ring)
        have q1 := q4 hj
        rw [e]
        have hn := azimuth_near ((3 / 2) + q) (by linarith) (by linarith)
        exact ⟨side_pos rfl (cos_last_turn (by linarith) (by linarith)) hn.1, side_neg rfl (sin_neg_turn (by linarith) (by linarith)) hn.2⟩) hB4
    obtain ⟨D6, hd6, hf⟩ := built_finish hb (k := 4) (Or.inr (Or.inr rfl)) rfl hE
      (nb ≤ 1000000 ∧ (hx = 0 ∨ 0.000001 * r ≤ hx) ∧ (hy = 0 ∨ 0.000001 * r ≤ hy))
      (fun i => match i with
        | 0 => (s, a, b, (hx, hy), _, _) | 1 => (s', a', b', (-hx, hy), _, _)
        | 2 => (s2, a2, b2, (-hx, -hy), _, _) | _ => (s3, a3, b3, (hx, -hy), _, _))
      (by
        rintro x' y' (rfl | rfl) (rfl | rfl)
        · exact ⟨0, by norm_num, rfl⟩
        · exact ⟨3, by norm_num, rfl⟩
        · exact ⟨1, by norm_num, rfl⟩
        · exact ⟨2, by norm_num, rfl⟩)
      (fun hT i hi => by
        have p := lt_of_le_of_ne hE.x (Ne.symm c2)
        have q := lt_of_le_of_ne hE.y (Ne.symm c3)
        have hi : i = 0 ∨ i = 1 ∨ i = 2 ∨ i = 3 := by omega
        rcases hi with rfl | rfl | rfl | rfl
        · show Ahead r hx hy (0 + _) (-hx) hy (piF / 2)
          rw [last_quarter, zero_add]
          exact ahead_top p
        · show Ahead r (-hx) hy (piF / 2 + _) (-hx) (-hy) piF
          rw [last_quarter, add_halves]
          exact ahead_left q
        · show Ahead r (-hx) (-hy) (piF + _) hx (-hy) (3 * piF / 2)
          rw [last_quarter, show piF + piF / 2 = 3 * piF / 2 by ring]
          exact ahead_bottom p
        · show Ahead r hx (-hy) (3 * piF / 2 + _) hx hy 0
          rw [last_quarter, show 3 * piF / 2 + piF / 2 = 2 * piF by ring]
          exact ahead_last_y hE.r (hT.2.2.resolve_left q.ne'))
      (fun _ => ⟨lt_of_le_of_ne hE.x (Ne.symm c2), lt_of_le_of_ne hE.y (Ne.symm c3), rfl, rfl, rfl, rfl⟩) hB5
    refine ⟨D6, run ?_ hd6, hf⟩
    unfold xAddSectors
    dsimp only
    rw [if_neg c1, if_neg c2, if_neg c3]
    exact hd.bind (f := fun _ => _) (hd'.bind (f := fun _ => _)
      (hd2.bind (f := fun _ => _) (hd3.bind (f := fun _ => _) (Does.pure _ _))))

/-- The vertices of the additions, seen in the extended mesh. -/
theorem good_vpos (hb : Base m recs) {D : Delta} {v : Vert} (h : Good hx hy hz r m D v)
    (cn : Option ℕ) :
    OnRoundedBox hx hy hz r (vpos (m.plus D cn) (m.vrec v)) (vnormal (m.plus D cn) (m.vrec v)) := by
  obtain ⟨j, i, p, n, h1, h2, h3, h4, h5⟩ := h
  obtain ⟨vp, vn⟩ := v
  simp only at h1 h2
  subst h1 h2
  rw [vpos_plus hb D cn j _ p h3, vnormal_plus hb D cn i _ n h4]
  exact h5

theorem at_vpos (hb : Base m recs) {D : Delta} {Q : ℝ × ℝ × ℝ → Prop}
    (h : ∃ v ∈ D.F.flatten, At m D v Q) (cn : Option ℕ) :
    ∃ f ∈ D.F.map (List.map m.vrec), ∃ v ∈ f, Q (vpos (m.plus D cn) v) := by
  obtain ⟨⟨vp, vn⟩, hv, j, p, h1, h3, h4⟩ := h
  obtain ⟨f, hf, hvf⟩ := List.mem_flatten.1 hv
  simp only at h1
  subst h1
  refine ⟨_, List.mem_map.2 ⟨f, hf, rfl⟩, _, List.mem_map.2 ⟨_, hvf, rfl⟩, ?_⟩
  rw [vpos_plus hb D cn j _ p h3]
  exact h4

theorem edges_map (m : Mesh) (F : List (List Vert)) :
    edges (F.map (List.map m.vrec)) = F.flatMap fun f => cyclicPairs (f.map Vert.p) := by
  unfold edges
  rw [List.flatMap_map]
  congr 1
  funext f
  congr 1
  rw [List.map_map]
  congr 1
  funext v
  exact vrec_zero m v

theorem bnd_eq_sum (e : ℕ → ℕ → ℤ) (F : List (List Vert)) :
    bnd e F = ((F.flatMap fun f => cyclicPairs (f.map Vert.p)).map fun q => e q.1 q.2).sum := by
  induction F with
  | nil => rfl
  | cons f F ih =>
    rw [List.flatMap_cons, List.map_append, List.sum_append, ← ih]
    simp [bnd]

theorem sum_indicator (l : List (ℕ × ℕ)) (a b : ℕ) :
    (l.map fun q => ((if q = (a, b) then 1 else 0 : ℤ) - if q = (b, a) then 1 else 0)).sum =
      (l.count (a, b) : ℤ) - l.count (b, a) := by
  induction l with
  | nil => simp
  | cons q l ih =>
    rw [List.map_cons, List.sum_cons, ih, List.count_cons, List.count_cons]
    push_cast
    simp only [beq_iff_eq]
    split_ifs <;> ring

/-- On any reachable mesh outside `begin`/`end` (with a current texture coordinate if the mesh
uses them), for non-negative half-extents, a positive radius and any number of arc vertices,
`addRoundedBoxMesh` succeeds and keeps the existing content; every vertex of the polygons it
adds is at the radius from a corner of the inner box, in the direction of its unit normal, and at
the radius from the inner box, within a millionth; the points above and below the corners are
among them; and each directed edge occurs as often as the opposite one, i.e. the surface is closed. The mesh is
left closed. When the half-extent along z is not zero, one of the vertices is strictly inside the
rounded box (the polar angle of the equator is computed with `3.14`). -/
theorem C44_rounded_box (tex : Bool) (h : List MeshCall) (hu : ∀ c ∈ h, UnitNormal c)
    (hm : (meshAfter tex h).currentMode = none)
    (ht : tex = true → (meshAfter tex h).currentTexCoord ≠ none)
    (hx hy hz r : ℝ) (h0x : 0 ≤ hx) (h0y : 0 ≤ hy) (h0z : 0 ≤ hz) (hr : 0 < r) (nb : ℕ) :
    ∃ m', addRoundedBoxMesh hx hy hz r nb (meshAfter tex h) = (.ok (), m') ∧
      m'.currentMode = none ∧
      (meshAfter tex h).positions <+: m'.positions ∧ (meshAfter tex h).normals <+: m'.normals ∧
      m'.texCoords = (meshAfter tex h).texCoords ∧
      ∃ fs, faces m' = faces (meshAfter tex h) ++ fs ∧ fs ≠ [] ∧
        (∀ f ∈ fs, ∀ v ∈ f, v.getD 0 0 < m'.positionsNb ∧ v.getD 1 0 < m'.normalsNb ∧
          OnRoundedBox hx hy hz r (vpos m' v) (vnormal m' v)) ∧
        (∀ x y z, (x = hx ∨ x = -hx) → (y = hy ∨ y = -hy) → (z = hz + r ∨ z = -(hz + r)) →
          ∃ f ∈ fs, ∃ v ∈ f, vpos m' v = (x, y, z)) ∧
        (hz ≠ 0 → ∃ f ∈ fs, ∃ v ∈ f, boxDistSq hx hy hz (vpos m' v) < r ^ 2) ∧
        ∀ a b, (edges fs).count (a, b) = (edges fs).count (b, a) := by
  obtain ⟨recs, hb⟩ := base_after tex h hu hm ht
  set m := meshAfter tex h with hmdef
  clear_value m
  obtain ⟨D, hd, ⟨ho, hne, hg, hpole, hins, hbnd⟩, -⟩ := does_rounded hb ⟨h0x, h0y, h0z, hr⟩ nb
  obtain ⟨cn, e⟩ := hd m.currentNormal
  rw [← Mesh.plus_nil hb] at e
  refine ⟨m.plus D cn, e, by simp [Mesh.plus, ho], List.prefix_append _ _,
    List.prefix_append _ _, rfl, D.F.map (List.map m.vrec), faces_plus hb D cn ho,
    by simpa using hne, ?_, ?_, ?_, ?_⟩
  · intro f hf v hv
    obtain ⟨f', hf', rfl⟩ := List.mem_map.1 hf
    obtain ⟨w, hw, rfl⟩ := List.mem_map.1 hv
    have hgw := hg w (List.mem_flatten.2 ⟨f', hf', hw⟩)
    rw [vrec_zero, vrec_one, plus_positionsNb hb, plus_normalsNb hb]
    exact ⟨hgw.valid.1, hgw.valid.2, good_vpos hb hgw cn⟩
  · intro x y z hx' hy' hz'
    rcases hz' with rfl | rfl
    · exact at_vpos hb (hpole x y hx' hy').1 cn
    · exact at_vpos hb (hpole x y hx' hy').2 cn
  · intro h0
    exact at_vpos hb (hins h0) cn
  · intro a b
    have := hbnd (fun x y => (if (x, y) = (a, b) then 1 else 0) - if (x, y) = (b, a) then 1 else 0)
      (by
        intro x y
        have e1 : ((x, y) = (a, b)) = ((y, x) = (b, a)) := by
          simp only [Prod.mk.injEq]; exact propext and_comm
        have e2 : ((x, y) = (b, a)) = ((y, x) = (a, b)) := by
          simp only [Prod.mk.injEq]; exact propext and_comm
        simp only [e1, e2]; ring)
    rw [bnd_eq_sum, sum_indicator] at this
    rw [edges_map]
    omega

/-- `createRoundedBoxMesh` returns such a mesh. -/
theorem C44_create (hx hy hz r : ℝ) (h0x : 0 ≤ hx) (h0y : 0 ≤ hy) (h0z : 0 ≤ hz) (hr : 0 < r)
    (nb : ℕ) :
    ∃ m, createRoundedBoxMesh hx hy hz r nb = .ok m ∧ m.currentMode = none ∧ faces m ≠ [] ∧
      (∀ f ∈ faces m, ∀ v ∈ f, v.getD 0 0 < m.positionsNb ∧ v.getD 1 0 < m.normalsNb ∧
        OnRoundedBox hx hy hz r (vpos m v) (vnormal m v)) ∧
      (∀ x y z, (x = hx ∨ x = -hx) → (y = hy ∨ y = -hy) → (z = hz + r ∨ z = -(hz + r)) →
        ∃ f ∈ faces m, ∃ v ∈ f, vpos m v = (x, y, z)) ∧
      (hz ≠ 0 → ∃ f ∈ faces m, ∃ v ∈ f, boxDistSq hx hy hz (vpos m v) < r ^ 2) ∧
      ∀ a b, (edges (faces m)).count (a, b) = (edges (faces m)).count (b, a) := by
  obtain ⟨m, e, hm, -, -, -, fs, hf, h1, h2, h3, h4, h5⟩ := C44_rounded_box false [] (by simp) rfl
    (by simp) hx hy hz r h0x h0y h0z hr nb
  have hf' : faces m = fs := by
    rw [hf]; simp [meshAfter, Spec.faces, Mesh.new, splits]
  have e' : addRoundedBoxMesh hx hy hz r nb (Mesh.new false) = (.ok (), m) := e
  exact ⟨m, by simp only [createRoundedBoxMesh, e'], hm, by rwa [hf'], by rwa [hf'], by rwa [hf'],
    by rwa [hf'], by rwa [hf']⟩

/-- The claim that the vertices are at exactly the radius from the inner box is false: that of
half-extents 1 and radius 1, for instance, has vertices inside. -/
theorem C44_not_on_surface : ∃ m, createRoundedBoxMesh 1 1 1 1 3 = .ok m ∧
    ¬ ∀ f ∈ faces m, ∀ v ∈ f, boxDistSq 1 1 1 (vpos m v) = 1 := by
  obtain ⟨m, e, -, -, -, -, h, -⟩ := C44_create 1 1 1 1 zero_le_one zero_le_one zero_le_one one_pos 3
  refine ⟨m, e, fun hall => ?_⟩
  obtain ⟨f, hf, v, hv, hlt⟩ := h one_ne_zero
  rw [hall f hf v hv] at hlt
  norm_num at hlt

/-- The hypotheses of `C44_rounded_box` hold for a mesh with a current texture coordinate. -/
example : (meshAfter true [.texCoord 0 0]).currentMode = none ∧
    (meshAfter true [.texCoord 0 0]).currentTexCoord ≠ none := by
  simp [meshAfter, Mesh.new, meshCall, Mesh.texCoord]

end AlMath
