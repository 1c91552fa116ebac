import Verif.Model.FloatPose
import Verif.Props.C85
import Verif.Props.C94

/-!
C97: planar poses in single precision.
-/

namespace AlMath.F32.Pose2D

open AlMath.F32

namespace Spec

/-- The pose of floats that holds the numbers of an exact pose. Not in /repo: specification. -/
def hold (P : AlMath.Pose2D) : Pose2D := ⟨fin P.x, fin P.y, fin P.theta⟩

/-- One of the two forms of composition: `*=` or `*`. Not in /repo: specification. -/
noncomputable def composeBy (m : Libm) (inPlace : Bool) : Pose2D → Pose2D → Pose2D := if inPlace then mulAssign m else mul m

/-- A path: poses composed one after the other, each in one of the two forms. Not in /repo: specification. -/
noncomputable def path (m : Libm) : AlMath.Pose2D → List (Bool × AlMath.Pose2D) → Pose2D :=
  fun p l => l.foldl (fun r q => composeBy m q.1 r (hold q.2)) (hold p)

/-- The composition of planar poses without rounding: the second one is turned by the heading of the first one, then moved.
Not in /repo: specification. -/
noncomputable def comp (P Q : AlMath.Pose2D) : AlMath.Pose2D :=
  ⟨P.x + Real.cos P.theta * Q.x - Real.sin P.theta * Q.y, P.y + Real.sin P.theta * Q.x + Real.cos P.theta * Q.y,
    P.theta + Q.theta⟩

/-- The same path without rounding. Not in /repo: specification. -/
noncomputable def exactPath : AlMath.Pose2D → List (Bool × AlMath.Pose2D) → AlMath.Pose2D :=
  fun p l => l.foldl (fun r q => comp r q.2) p

/-- The numbers of a pose are floats. Not in /repo: specification. -/
def IsRep (P : AlMath.Pose2D) : Prop := Rep P.x ∧ Rep P.y ∧ Rep P.theta

/-- Both coordinates are within `L`. Not in /repo: specification. -/
def Within (P : AlMath.Pose2D) (L : ℝ) : Prop := |P.x| ≤ L ∧ |P.y| ≤ L

/-- The coordinates of two poses differ by at most `e`. Not in /repo: specification. -/
def Close (P Q : AlMath.Pose2D) (e : ℝ) : Prop := |P.x - Q.x| ≤ e ∧ |P.y - Q.y| ≤ e

end Spec

open Spec

theorem neg_mul_fin {s y : ℝ} (h : |s * y| ≤ 2 ^ 127) : neg (F32.mul (fin s) (fin y)) = F32.mul (fin (-s)) (fin y) := by
  rw [mul_fin h, mul_fin (by rw [neg_mul, abs_neg]; exact h), neg, neg_mul, rnd_neg]

/-- Two products, rounded. -/
theorem turn_fin {c s C S x y L : ℝ} (hc : |c - C| ≤ 2 ^ (-23 : ℤ)) (hs : |s - S| ≤ 2 ^ (-23 : ℤ)) (hC : |C| ≤ 1) (hS : |S| ≤ 1)
    (hx : |x| ≤ L) (hy : |y| ≤ L) (hL : L ≤ 2 ^ 120) :
    ∃ a b, F32.mul (fin c) (fin x) = fin a ∧ F32.mul (fin s) (fin y) = fin b ∧ Grid a ∧ Grid b ∧
      |a - C * x| ≤ 7 / 2 * 2 ^ (-24 : ℤ) * L + 2 ^ (-150 : ℤ) ∧ |b - S * y| ≤ 7 / 2 * 2 ^ (-24 : ℤ) * L + 2 ^ (-150 : ℤ) ∧
      |C * x| ≤ L ∧ |S * y| ≤ L := by
  have key : ∀ {c C x : ℝ}, |c - C| ≤ 2 ^ (-23 : ℤ) → |C| ≤ 1 → |x| ≤ L →
      ∃ a, F32.mul (fin c) (fin x) = fin a ∧ Grid a ∧ |a - C * x| ≤ 7 / 2 * 2 ^ (-24 : ℤ) * L + 2 ^ (-150 : ℤ) ∧ |C * x| ≤ L := by
    intro c C x hc hC hx
    have hL0 : 0 ≤ L := (abs_nonneg x).trans hx
    have h23 : (2 : ℝ) ^ (-23 : ℤ) = 2 / 16777216 := by norm_num
    have hc2 := le_of_err hc
    have e1 := rnd_mul c x
    have m1 : |c - C| * |x| ≤ 2 / 16777216 * L := by
      rw [← h23]
      exact mul_le_mul hc hx (abs_nonneg _) (by positivity)
    have m2 : |c| * |x| ≤ (1 + 2 / 16777216) * L := by
      rw [h23] at hc2
      exact mul_le_mul (by linarith) hx (abs_nonneg _) (by norm_num)
    have m3 : |C * x| ≤ L := by
      rw [abs_mul]
      calc |C| * |x| ≤ 1 * L := mul_le_mul hC hx (abs_nonneg _) (by norm_num)
        _ = L := one_mul L
    refine ⟨rnd (c * x), mul_fin ?_, rnd_grid _, ?_, m3⟩
    · rw [abs_mul]
      refine m2.trans ?_
      have : (1 + 2 / 16777216) * (2 : ℝ) ^ 120 ≤ 2 ^ 127 := by norm_num
      exact (mul_le_mul_of_nonneg_left hL (by norm_num)).trans this
    · have e2 : rnd (c * x) - C * x = (rnd (c * x) - c * x) + (c - C) * x := by ring
      rw [e2]
      refine (abs_add_le _ _).trans ?_
      rw [abs_mul (c - C)]
      have := eta_pos
      rw [two_neg24] at *
      generalize (2 : ℝ) ^ (-150 : ℤ) = η at *
      linarith
  obtain ⟨a, h1, h2, h3, h4⟩ := key hc hC hx
  obtain ⟨b, k1, k2, k3, k4⟩ := key hs hS hy
  exact ⟨a, b, h1, k1, h2, k2, h3, k3, h4, k4⟩

/-- Two orders of a sum of three numbers, rounded. -/
theorem sum3_fin {x a b A B L P : ℝ} (hx : Grid x) (ha : Grid a) (hb : Grid b) (hP : |x| ≤ P) (hPb : P ≤ 2 ^ 120)
    (hL : L ≤ 2 ^ 120) (h1 : |a - A| ≤ 7 / 2 * 2 ^ (-24 : ℤ) * L + 2 ^ (-150 : ℤ))
    (h2 : |b - B| ≤ 7 / 2 * 2 ^ (-24 : ℤ) * L + 2 ^ (-150 : ℤ)) (hA : |A| ≤ L) (hB : |B| ≤ L) :
    (∃ v, add (fin a) (fin b) = fin v ∧ Rep v ∧ |v - (A + B)| ≤ 10 * 2 ^ (-24 : ℤ) * L + 2 ^ (-148 : ℤ)) ∧
    (∃ v, add (fin x) (add (fin a) (fin b)) = fin v ∧ Rep v ∧
      |v - (x + A + B)| ≤ 2 ^ (-22 : ℤ) * P + 2 ^ (-20 : ℤ) * L + 2 ^ (-148 : ℤ)) ∧
    ∃ v, add (add (fin x) (fin a)) (fin b) = fin v ∧ Rep v ∧
      |v - (x + A + B)| ≤ 2 ^ (-22 : ℤ) * P + 2 ^ (-20 : ℤ) * L + 2 ^ (-148 : ℤ) := by
  have hL0 : 0 ≤ L := (abs_nonneg _).trans hA
  have hP0 : 0 ≤ P := (abs_nonneg _).trans hP
  have h22 : (2 : ℝ) ^ (-22 : ℤ) = 4 / 16777216 := by norm_num
  have h20 : (2 : ℝ) ^ (-20 : ℤ) = 16 / 16777216 := by norm_num
  have he := eta_pos
  have he1 := eta_le
  rw [four_eta, h22, h20]
  rw [two_neg24] at *
  have ba := le_of_err h1
  have bb := le_of_err h2
  have s1 := rnd_add ha hb
  have t1 := abs_add_le a b
  have u1 := le_of_err s1
  have s2 := rnd_add hx (rnd_grid (a + b))
  have t2 := abs_add_le x (rnd (a + b))
  have s3 := rnd_add hx ha
  have t3 := abs_add_le x a
  have u3 := le_of_err s3
  have s4 := rnd_add (rnd_grid (x + a)) hb
  have t4 := abs_add_le (rnd (x + a)) b
  rw [two_neg24] at *
  have big : (2 : ℝ) ^ 120 * 10 ≤ 2 ^ 127 := by norm_num
  have big1 : (16 : ℝ) ≤ 2 ^ 120 := by norm_num
  generalize (2 : ℝ) ^ (-150 : ℤ) = η at *
  have r1 : |a + b| ≤ 2 ^ 127 := by
    generalize (2 : ℝ) ^ 120 = M at *
    generalize (2 : ℝ) ^ 127 = M' at *
    linarith
  have r2 : |x + rnd (a + b)| ≤ 2 ^ 127 := by
    generalize (2 : ℝ) ^ 120 = M at *
    generalize (2 : ℝ) ^ 127 = M' at *
    linarith
  have r3 : |x + a| ≤ 2 ^ 127 := by
    generalize (2 : ℝ) ^ 120 = M at *
    generalize (2 : ℝ) ^ 127 = M' at *
    linarith
  have r4 : |rnd (x + a) + b| ≤ 2 ^ 127 := by
    generalize (2 : ℝ) ^ 120 = M at *
    generalize (2 : ℝ) ^ 127 = M' at *
    linarith
  clear big big1 hL hPb
  refine ⟨⟨rnd (a + b), add_fin r1, rnd_rep r1, ?_⟩, ⟨rnd (x + rnd (a + b)), ?_, rnd_rep r2, ?_⟩, ⟨rnd (rnd (x + a) + b), ?_, rnd_rep r4, ?_⟩⟩
  · have e : rnd (a + b) - (A + B) = (rnd (a + b) - (a + b)) + (a - A) + (b - B) := by ring
    rw [e]
    have q1 := abs_add_le ((rnd (a + b) - (a + b)) + (a - A)) (b - B)
    have q2 := abs_add_le (rnd (a + b) - (a + b)) (a - A)
    linarith
  · rw [add_fin r1, add_fin r2]
  · have e : rnd (x + rnd (a + b)) - (x + A + B) =
        (rnd (x + rnd (a + b)) - (x + rnd (a + b))) + (rnd (a + b) - (a + b)) + (a - A) + (b - B) := by ring
    rw [e]
    have q0 := abs_add_le ((rnd (x + rnd (a + b)) - (x + rnd (a + b))) + (rnd (a + b) - (a + b)) + (a - A)) (b - B)
    have q1 := abs_add_le ((rnd (x + rnd (a + b)) - (x + rnd (a + b))) + (rnd (a + b) - (a + b))) (a - A)
    have q2 := abs_add_le (rnd (x + rnd (a + b)) - (x + rnd (a + b))) (rnd (a + b) - (a + b))
    linarith
  · rw [add_fin r3, add_fin r4]
  · have e : rnd (rnd (x + a) + b) - (x + A + B) =
        (rnd (rnd (x + a) + b) - (rnd (x + a) + b)) + (rnd (x + a) - (x + a)) + (a - A) + (b - B) := by ring
    rw [e]
    have q0 := abs_add_le ((rnd (rnd (x + a) + b) - (rnd (x + a) + b)) + (rnd (x + a) - (x + a)) + (a - A)) (b - B)
    have q1 := abs_add_le ((rnd (rnd (x + a) + b) - (rnd (x + a) + b)) + (rnd (x + a) - (x + a))) (a - A)
    have q2 := abs_add_le (rnd (rnd (x + a) + b) - (rnd (x + a) + b)) (rnd (x + a) - (x + a))
    linarith

/-- The products and sums of a composition, for all cosines and sines that are accurate. -/
theorem step_fin {m : Libm} (hm : m.Accurate) {t : ℝ} (ht : Rep t) {x y u v L P : ℝ} (hx : Rep x) (hy : Rep y)
    (hxP : |x| ≤ P) (hyP : |y| ≤ P) (hP : P ≤ 2 ^ 120) (hu : |u| ≤ L) (hv : |v| ≤ L) (hL : L ≤ 2 ^ 120) :
    ∀ f : Bool, ∃ X Y,
      (if f then add (fin x) (sub (F32.mul (m.cos (fin t)) (fin u)) (F32.mul (m.sin (fin t)) (fin v)))
        else sub (add (fin x) (F32.mul (m.cos (fin t)) (fin u))) (F32.mul (m.sin (fin t)) (fin v))) = fin X ∧
      (if f then add (fin y) (add (F32.mul (m.sin (fin t)) (fin u)) (F32.mul (m.cos (fin t)) (fin v)))
        else add (add (fin y) (F32.mul (m.sin (fin t)) (fin u))) (F32.mul (m.cos (fin t)) (fin v))) = fin Y ∧
      Rep X ∧ Rep Y ∧
      |X - (x + Real.cos t * u - Real.sin t * v)| ≤ 2 ^ (-22 : ℤ) * P + 2 ^ (-20 : ℤ) * L + 2 ^ (-148 : ℤ) ∧
      |Y - (y + Real.sin t * u + Real.cos t * v)| ≤ 2 ^ (-22 : ℤ) * P + 2 ^ (-20 : ℤ) * L + 2 ^ (-148 : ℤ) := by
  obtain ⟨c, hc, -, ec⟩ := hm.cos t ht
  obtain ⟨s, hs, -, es⟩ := hm.sin t ht
  have es' : |-s - -Real.sin t| ≤ 2 ^ (-23 : ℤ) := by
    rw [← abs_neg, show -(-s - -Real.sin t) = s - Real.sin t by ring]
    exact es
  have b1 := Real.abs_cos_le_one t
  have b2 := Real.abs_sin_le_one t
  have b3 : |-Real.sin t| ≤ 1 := by rwa [abs_neg]
  obtain ⟨a, b, h1, h2, h3, h4, h5, h6, h7, h8⟩ := turn_fin ec es' b1 b3 hu hv hL
  obtain ⟨-, ⟨X1, k1, k2, k3⟩, X2, k4, k5, k6⟩ := sum3_fin hx.grid h3 h4 hxP hP hL h5 h6 h7 h8
  obtain ⟨a', b', h1', h2', h3', h4', h5', h6', h7', h8'⟩ := turn_fin es ec b2 b1 hu hv hL
  obtain ⟨-, ⟨Y1, l1, l2, l3⟩, Y2, l4, l5, l6⟩ := sum3_fin hy.grid h3' h4' hyP hP hL h5' h6' h7' h8'
  have hsv : |s * v| ≤ 2 ^ 127 := by
    have := le_of_err es
    have h23 : (2 : ℝ) ^ (-23 : ℤ) ≤ 1 := by norm_num
    rw [abs_mul]
    calc |s| * |v| ≤ 2 * 2 ^ 120 := mul_le_mul (by linarith) (hv.trans hL) (abs_nonneg _) (by norm_num)
      _ ≤ 2 ^ 127 := by norm_num
  have hn : neg (F32.mul (fin s) (fin v)) = fin b := by rw [neg_mul_fin hsv, h2]
  have ex : x + Real.cos t * u + -Real.sin t * v = x + Real.cos t * u - Real.sin t * v := by ring
  rw [ex] at k3 k6
  intro f
  rw [hc, hs]
  cases f
  · refine ⟨X2, Y2, ?_, ?_, k5, l5, k6, l6⟩
    · rw [if_neg (by simp), sub, hn, h1, k4]
    · rw [if_neg (by simp), h1', h2', l4]
  · refine ⟨X1, Y1, ?_, ?_, k2, l2, k3, l3⟩
    · rw [if_pos rfl, sub, hn, h1, k1]
    · rw [if_pos rfl, h1', h2', l1]

/-- One composition, in both forms. The heading has only the error of one sum. -/
theorem C97_compose (m : Libm) (hm : m.Accurate) (P Q : AlMath.Pose2D) (hP : IsRep P) (hQ : IsRep Q) (A L : ℝ)
    (hA : Within P A) (hA' : A ≤ 2 ^ 120) (hL : Within Q L) (hL' : L ≤ 2 ^ 120) (ht : |P.theta + Q.theta| ≤ 2 ^ 127) (f : Bool) :
    ∃ R, composeBy m f (hold P) (hold Q) = hold R ∧ IsRep R ∧
      Close R (comp P Q) (2 ^ (-22 : ℤ) * A + 2 ^ (-20 : ℤ) * L + 2 ^ (-148 : ℤ)) ∧
      |R.theta - (P.theta + Q.theta)| ≤ 2 ^ (-24 : ℤ) * |P.theta + Q.theta| := by
  obtain ⟨X, Y, h1, h2, h3, h4, h5, h6⟩ := step_fin hm hP.2.2 hP.1 hP.2.1 hA.1 hA.2 hA' hL.1 hL.2 hL' f
  refine ⟨⟨X, Y, rnd (P.theta + Q.theta)⟩, ?_, ⟨h3, h4, rnd_rep ht⟩, ⟨h5, h6⟩, rnd_add hP.2.2.grid hQ.2.2.grid⟩
  cases f
  · rw [if_neg (by simp)] at h1 h2
    show mul m (hold P) (hold Q) = _
    simp only [mul, hold, h1, h2, add_fin ht]
  · rw [if_pos rfl] at h1 h2
    show mulAssign m (hold P) (hold Q) = _
    simp only [mulAssign, hold, h1, h2, add_fin ht]

theorem exactPath_append (p : AlMath.Pose2D) (l : List (Bool × AlMath.Pose2D)) (q : Bool × AlMath.Pose2D) :
    exactPath p (l ++ [q]) = comp (exactPath p l) q.2 := by
  simp [exactPath]

theorem path_append (m : Libm) (p : AlMath.Pose2D) (l : List (Bool × AlMath.Pose2D)) (q : Bool × AlMath.Pose2D) :
    path m p (l ++ [q]) = composeBy m q.1 (path m p l) (hold q.2) := by
  simp [path]

theorem exactPath_within (p : AlMath.Pose2D) (l : List (Bool × AlMath.Pose2D)) {A L : ℝ} (hp : Within p A)
    (hl : ∀ q ∈ l, Within q.2 L) : Within (exactPath p l) (A + 2 * l.length * L) := by
  induction l using List.reverseRecOn with
  | nil => simpa [exactPath] using hp
  | append_singleton l q ih =>
    obtain ⟨h1, h2⟩ := ih (fun q' hq' => hl q' (by simp [hq']))
    obtain ⟨h3, h4⟩ := hl q (by simp)
    rw [exactPath_append]
    have hL : 0 ≤ L := (abs_nonneg _).trans h3
    set T := (exactPath p l).theta
    have mul_le : ∀ {c x : ℝ}, |c| ≤ 1 → |x| ≤ L → |c * x| ≤ L := by
      intro c x hc hx
      rw [abs_mul]
      calc |c| * |x| ≤ 1 * L := mul_le_mul hc hx (abs_nonneg _) (by norm_num)
        _ = L := one_mul L
    have b1 := mul_le (Real.abs_cos_le_one T) h3
    have b2 := mul_le (Real.abs_sin_le_one T) h4
    have b3 := mul_le (Real.abs_sin_le_one T) h3
    have b4 := mul_le (Real.abs_cos_le_one T) h4
    have e : (((l ++ [q]).length : ℕ) : ℝ) = l.length + 1 := by simp
    rw [e]
    constructor
    · show |(exactPath p l).x + Real.cos T * q.2.x - Real.sin T * q.2.y| ≤ _
      have q1 := abs_sub ((exactPath p l).x + Real.cos T * q.2.x) (Real.sin T * q.2.y)
      have q2 := abs_add_le (exactPath p l).x (Real.cos T * q.2.x)
      linarith
    · show |(exactPath p l).y + Real.sin T * q.2.x + Real.cos T * q.2.y| ≤ _
      have q1 := abs_add_le ((exactPath p l).y + Real.sin T * q.2.x) (Real.cos T * q.2.y)
      have q2 := abs_add_le (exactPath p l).y (Real.sin T * q.2.x)
      linarith

/-- Dead reckoning: a path of at most 2^20 poses whose exact headings stay within `B`. The error of the heading grows with
the number of poses, that of the position with its square. -/
theorem C97_path (m : Libm) (hm : m.Accurate) (p : AlMath.Pose2D) (l : List (Bool × AlMath.Pose2D)) (A L B : ℝ)
    (hp : IsRep p) (hpA : Within p A) (hA : A ≤ 2 ^ 60) (hl : ∀ q ∈ l, IsRep q.2 ∧ Within q.2 L) (hL0 : 0 ≤ L) (hL : L ≤ 2 ^ 60)
    (hB : ∀ k ≤ l.length, |(exactPath p (l.take k)).theta| ≤ B) (hB' : B ≤ 2 ^ 20) (hn : l.length ≤ 2 ^ 20) :
    ∃ R, path m p l = hold R ∧ IsRep R ∧
      |R.theta - (exactPath p l).theta| ≤ l.length * B * 2 ^ (-23 : ℤ) ∧
      Close R (exactPath p l) (l.length *
        (2 ^ (-21 : ℤ) * (A + 2 * l.length * L + l.length * L * B) + 2 ^ (-19 : ℤ) * L + 2 ^ (-147 : ℤ))) := by
  have hA0 : 0 ≤ A := (abs_nonneg _).trans hpA.1
  have hB0 : 0 ≤ B := (abs_nonneg _).trans (hB 0 (Nat.zero_le _))
  set n : ℝ := (l.length : ℝ) with hnd
  have hn' : n ≤ 1048576 := by
    rw [hnd]
    exact_mod_cast hn
  have hn0 : 0 ≤ n := Nat.cast_nonneg _
  set G : ℝ := 2 ^ (-21 : ℤ) * (A + 2 * n * L + n * L * B) + 2 ^ (-19 : ℤ) * L + 2 ^ (-147 : ℤ) with hG
  have hG0 : 0 ≤ G := by positivity
  have main : ∀ k ≤ l.length, ∃ R, path m p (l.take k) = hold R ∧ IsRep R ∧
      |R.theta - (exactPath p (l.take k)).theta| ≤ k * B * 2 ^ (-23 : ℤ) ∧ Close R (exactPath p (l.take k)) (k * G) := by
    intro k
    induction k with
    | zero => exact fun _ => ⟨p, by simp [path], hp, by simp [exactPath], by simp [Close, exactPath]⟩
    | succ k ih =>
      intro hk
      obtain ⟨R, h1, h2, h3, h4⟩ := ih (by omega)
      obtain ⟨q, hq⟩ : ∃ q, l[k] = q := ⟨_, rfl⟩
      have hql : q ∈ l := hq ▸ List.getElem_mem _
      have hBk := hB (k + 1) hk
      have hW := exactPath_within p (l.take k) hpA (L := L) (fun q' hq' => (hl q' (List.mem_of_mem_take hq')).2)
      rw [List.take_add_one, List.getElem?_eq_getElem (by omega), hq] at hBk ⊢
      simp only [Option.toList_some] at hBk ⊢
      rw [exactPath_append] at hBk ⊢
      rw [path_append, h1]
      set E := exactPath p (l.take k) with hE
      have hkn : (k : ℝ) ≤ n := by
        rw [hnd]
        exact_mod_cast (by omega : k ≤ l.length)
      have hk0 : (0 : ℝ) ≤ k := Nat.cast_nonneg _
      have hlen : (((l.take k).length : ℕ) : ℝ) = k := by
        rw [List.length_take, min_eq_left (by omega)]
      rw [hlen] at hW
      obtain ⟨hQ, hQL⟩ := hl q hql
      have hnL : 0 ≤ n * L := by positivity
      have hkL : k * L ≤ n * L := mul_le_mul_of_nonneg_right hkn hL0
      have hkG : k * G ≤ n * G := mul_le_mul_of_nonneg_right hkn hG0
      have hnG : n * G ≤ 1048576 * G := mul_le_mul_of_nonneg_right hn' hG0
      have hnL' : n * L ≤ 1048576 * L := mul_le_mul_of_nonneg_right hn' hL0
      have hnLB : n * L * B ≤ n * L * 2 ^ 20 := mul_le_mul_of_nonneg_left hB' hnL
      have hkB : k * B ≤ 1048576 * B := mul_le_mul_of_nonneg_right (hkn.trans hn') hB0
      have hkB' : k * B ≤ n * B := mul_le_mul_of_nonneg_right hkn hB0
      have he : |R.theta - E.theta| ≤ 2 ^ (-3 : ℤ) * B := by
        refine h3.trans ?_
        norm_num
        linarith
      have hRW : Within R (A + 2 * n * L + k * G) := by
        obtain ⟨w1, w2⟩ := hW
        obtain ⟨c1, c2⟩ := h4
        constructor
        · have := abs_sub_abs_le_abs_sub R.x E.x
          linarith
        · have := abs_sub_abs_le_abs_sub R.y E.y
          linarith
      have hGle : G ≤ 2 ^ 82 := by
        rw [hG]
        norm_num at hA hL hnLB ⊢
        linarith
      have hbig : A + 2 * n * L + k * G ≤ 2 ^ 120 := by
        norm_num at hA hL hGle ⊢
        linarith
      have hE' : (comp E q.2).theta = E.theta + q.2.theta := rfl
      rw [hE'] at hBk ⊢
      have ht : |R.theta + q.2.theta| ≤ B + |R.theta - E.theta| := by
        have := abs_add_le (E.theta + q.2.theta) (R.theta - E.theta)
        rw [show E.theta + q.2.theta + (R.theta - E.theta) = R.theta + q.2.theta by ring] at this
        linarith
      have ht' : |R.theta + q.2.theta| ≤ 2 ^ 127 := by
        norm_num at he hB' ⊢
        linarith
      obtain ⟨R', g1, g2, g3, g4⟩ := C97_compose m hm R q.2 h2 hQ _ L hRW hbig hQL (hL.trans (by norm_num)) ht' q.1
      refine ⟨R', g1, g2, ?_, ?_⟩
      · have := abs_sub_le R'.theta (R.theta + q.2.theta) (E.theta + q.2.theta)
        rw [show R.theta + q.2.theta - (E.theta + q.2.theta) = R.theta - E.theta by ring] at this
        push_cast
        norm_num at this g4 h3 he ⊢
        linarith
      · have hc : ∀ {f : ℝ → ℝ}, (|f R.theta - f E.theta| ≤ |R.theta - E.theta|) → ∀ {x : ℝ}, |x| ≤ L →
            |f R.theta * x - f E.theta * x| ≤ 2 ^ (-23 : ℤ) * (n * L * B) := by
          intro f hf x hx
          rw [← sub_mul, abs_mul]
          refine (mul_le_mul (hf.trans h3) hx (abs_nonneg _) (by positivity)).trans ?_
          have : k * B * L ≤ n * B * L := mul_le_mul_of_nonneg_right hkB' hL0
          norm_num
          linarith
        have hcos : |Real.cos R.theta - Real.cos E.theta| ≤ |R.theta - E.theta| := Real.abs_cos_sub_cos_le _ _
        have hsin : |Real.sin R.theta - Real.sin E.theta| ≤ |R.theta - E.theta| := Real.abs_sin_sub_sin_le _ _
        have k1 := hc (f := Real.cos) hcos hQL.1
        have k2 := hc (f := Real.sin) hsin hQL.2
        have k3 := hc (f := Real.sin) hsin hQL.1
        have k4 := hc (f := Real.cos) hcos hQL.2
        have key : k * G + (2 ^ (-22 : ℤ) * (A + 2 * n * L + k * G) + 2 ^ (-20 : ℤ) * L + 2 ^ (-148 : ℤ)) +
            2 * (2 ^ (-23 : ℤ) * (n * L * B)) ≤ (((k + 1 : ℕ) : ℝ)) * G := by
          push_cast
          have z1 : 2 ^ (-22 : ℤ) * (A + 2 * n * L) + 2 ^ (-20 : ℤ) * L + 2 ^ (-148 : ℤ) + 2 * (2 ^ (-23 : ℤ) * (n * L * B)) = G / 2 := by
            rw [hG]
            norm_num
            ring
          have z2 : 2 ^ (-22 : ℤ) * (k * G) ≤ G / 4 := by
            norm_num
            linarith
          clear_value G
          generalize (2 : ℝ) ^ (-148 : ℤ) = w at *
          generalize (2 : ℝ) ^ (-22 : ℤ) = u at *
          generalize (2 : ℝ) ^ (-20 : ℤ) = v at *
          generalize 2 ^ (-23 : ℤ) * (n * L * B) = z at *
          have : u * (A + 2 * n * L + k * G) = u * (A + 2 * n * L) + u * (k * G) := by ring
          rw [this]
          clear hG hGle hbig
          linarith
        constructor
        · refine le_trans ?_ key
          have a1 := g3.1
          have a2 := h4.1
          simp only [comp] at a1 ⊢
          rw [abs_le] at a1 a2 k1 k2 ⊢
          constructor <;> linarith
        · refine le_trans ?_ key
          have a1 := g3.2
          have a2 := h4.2
          simp only [comp] at a1 ⊢
          rw [abs_le] at a1 a2 k3 k4 ⊢
          constructor <;> linarith
  have := main l.length le_rfl
  rwa [List.take_length] at this

/-- A turn: products and sums rounded. -/
theorem rotate_fin {m : Libm} (hm : m.Accurate) {t : ℝ} (ht : Rep t) {u v L : ℝ} (hu : |u| ≤ L) (hv : |v| ≤ L) (hL : L ≤ 2 ^ 120) :
    ∃ X Y, sub (F32.mul (m.cos (fin t)) (fin u)) (F32.mul (m.sin (fin t)) (fin v)) = fin X ∧
      add (F32.mul (m.sin (fin t)) (fin u)) (F32.mul (m.cos (fin t)) (fin v)) = fin Y ∧
      sub (F32.mul (fin u) (m.cos (fin t))) (F32.mul (fin v) (m.sin (fin t))) = fin X ∧
      add (F32.mul (fin v) (m.cos (fin t))) (F32.mul (fin u) (m.sin (fin t))) = fin Y ∧
      Rep X ∧ Rep Y ∧
      |X - (Real.cos t * u - Real.sin t * v)| ≤ 10 * 2 ^ (-24 : ℤ) * L + 2 ^ (-148 : ℤ) ∧
      |Y - (Real.sin t * u + Real.cos t * v)| ≤ 10 * 2 ^ (-24 : ℤ) * L + 2 ^ (-148 : ℤ) := by
  obtain ⟨c, hc, -, ec⟩ := hm.cos t ht
  obtain ⟨s, hs, -, es⟩ := hm.sin t ht
  have es' : |-s - -Real.sin t| ≤ 2 ^ (-23 : ℤ) := by
    rw [← abs_neg, show -(-s - -Real.sin t) = s - Real.sin t by ring]
    exact es
  have b1 := Real.abs_cos_le_one t
  have b2 := Real.abs_sin_le_one t
  have b3 : |-Real.sin t| ≤ 1 := by rwa [abs_neg]
  have h0 : |(0 : ℝ)| ≤ 0 := by simp
  obtain ⟨a, b, h1, h2, h3, h4, h5, h6, h7, h8⟩ := turn_fin ec es' b1 b3 hu hv hL
  obtain ⟨⟨X1, k1, k2, k3⟩, -⟩ := sum3_fin Rep.zero.grid h3 h4 h0 (by norm_num) hL h5 h6 h7 h8
  obtain ⟨a', b', h1', h2', h3', h4', h5', h6', h7', h8'⟩ := turn_fin es ec b2 b1 hu hv hL
  obtain ⟨⟨Y1, l1, l2, l3⟩, -⟩ := sum3_fin Rep.zero.grid h3' h4' h0 (by norm_num) hL h5' h6' h7' h8'
  have hsv : |s * v| ≤ 2 ^ 127 := by
    have := le_of_err es
    have h23 : (2 : ℝ) ^ (-23 : ℤ) ≤ 1 := by norm_num
    rw [abs_mul]
    calc |s| * |v| ≤ 2 * 2 ^ 120 := mul_le_mul (by linarith) (hv.trans hL) (abs_nonneg _) (by norm_num)
      _ ≤ 2 ^ 127 := by norm_num
  have hn : neg (F32.mul (fin s) (fin v)) = fin b := by rw [neg_mul_fin hsv, h2]
  have hcomm : ∀ x y : ℝ, F32.mul (fin x) (fin y) = F32.mul (fin y) (fin x) := fun x y => by simp only [F32.mul, mul_comm]
  have hcadd : ∀ x y : ℝ, add (fin x) (fin y) = add (fin y) (fin x) := fun x y => by simp only [add, add_comm]
  rw [hc, hs]
  refine ⟨X1, Y1, ?_, ?_, ?_, ?_, k2, l2, ?_, l3⟩
  · rw [sub, hn, h1, k1]
  · rw [h1', h2', l1]
  · rw [hcomm u, hcomm v, sub, hn, h1, k1]
  · rw [hcomm v, hcomm u, h1', h2', hcadd, l1]
  · rwa [show Real.cos t * u - Real.sin t * v = Real.cos t * u + -Real.sin t * v by ring]

/-- Turning into another reference, and the action on a position. -/
theorem C97_turn (m : Libm) (hm : m.Accurate) (t : ℝ) (ht : Rep t) (P : AlMath.Pose2D) (hP : IsRep P) (A : ℝ)
    (hA : Within P A) (hA' : A ≤ 2 ^ 120) :
    ∃ R, changeReference m (fin t) (hold P) = hold R ∧ IsRep R ∧ R.theta = P.theta ∧
      Close R (comp ⟨0, 0, t⟩ P) (2 ^ (-20 : ℤ) * A + 2 ^ (-148 : ℤ)) := by
  obtain ⟨X, Y, h1, h2, -, -, h3, h4, h5, h6⟩ := rotate_fin hm ht hA.1 hA.2 hA'
  have hA0 : 0 ≤ A := (abs_nonneg _).trans hA.1
  have hw : 10 * 2 ^ (-24 : ℤ) * A + 2 ^ (-148 : ℤ) ≤ 2 ^ (-20 : ℤ) * A + 2 ^ (-148 : ℤ) := by
    have : (10 * 2 ^ (-24 : ℤ) : ℝ) ≤ 2 ^ (-20 : ℤ) := by norm_num
    have := mul_le_mul_of_nonneg_right this hA0
    linarith
  refine ⟨⟨X, Y, P.theta⟩, ?_, ⟨h3, h4, hP.2.2⟩, rfl, ?_, ?_⟩
  · simp only [changeReference, hold, h1, h2]
  · simpa [comp] using h5.trans hw
  · simpa [comp] using h6.trans hw

/-- A position seen from a pose. -/
theorem C97_act (m : Libm) (hm : m.Accurate) (P : AlMath.Pose2D) (u v : ℝ) (hP : IsRep P) (A L : ℝ)
    (hA : Within P A) (hA' : A ≤ 2 ^ 120) (hu : |u| ≤ L) (hv : |v| ≤ L) (hL' : L ≤ 2 ^ 120) :
    ∃ X Y, act m (hold P) ⟨fin u, fin v⟩ = ⟨fin X, fin Y⟩ ∧ Rep X ∧ Rep Y ∧
      Close ⟨X, Y, 0⟩ (comp P ⟨u, v, 0⟩) (2 ^ (-22 : ℤ) * A + 2 ^ (-20 : ℤ) * L + 2 ^ (-148 : ℤ)) := by
  obtain ⟨X, Y, h1, h2, h3, h4, h5, h6⟩ := step_fin hm hP.2.2 hP.1 hP.2.1 hA.1 hA.2 hA' hu hv hL' false
  rw [if_neg (by simp)] at h1 h2
  exact ⟨X, Y, by simp only [act, hold, h1, h2], h3, h4, h5, h6⟩

theorem inverse_fin {m : Libm} (hm : m.Accurate) {P : AlMath.Pose2D} (hP : IsRep P) {A : ℝ}
    (hA : Within P A) (hA' : A ≤ 2 ^ 120) :
    ∃ R, inverse m (hold P) = hold R ∧ IsRep R ∧ R.theta = -P.theta ∧
      |R.x + (Real.cos P.theta * P.x + Real.sin P.theta * P.y)| ≤ 10 * 2 ^ (-24 : ℤ) * A + 2 ^ (-148 : ℤ) ∧
      |R.y + (-Real.sin P.theta * P.x + Real.cos P.theta * P.y)| ≤ 10 * 2 ^ (-24 : ℤ) * A + 2 ^ (-148 : ℤ) := by
  obtain ⟨X, Y, -, -, h1, h2, h3, h4, h5, h6⟩ := rotate_fin hm hP.2.2.neg hA.1 hA.2 hA'
  refine ⟨⟨-X, -Y, -P.theta⟩, ?_, ⟨h3.neg, h4.neg, hP.2.2.neg⟩, rfl, ?_, ?_⟩
  · simp only [inverse, hold, neg, h1, h2]
  · rw [← abs_neg]
    rw [Real.cos_neg, Real.sin_neg] at h5
    convert h5 using 2
    ring
  · rw [← abs_neg]
    rw [Real.cos_neg, Real.sin_neg] at h6
    convert h6 using 2
    ring

theorem turn_le {a b x y e : ℝ} (h : a ^ 2 + b ^ 2 = 1) (hx : |x| ≤ e) (hy : |y| ≤ e) : |a * x + b * y| ≤ 2 * e := by
  have ha : |a| ≤ 1 := abs_le_one_iff_mul_self_le_one.2 (by nlinarith [sq_nonneg b])
  have hb : |b| ≤ 1 := abs_le_one_iff_mul_self_le_one.2 (by nlinarith [sq_nonneg a])
  have h1 : |a * x| ≤ e := by
    rw [abs_mul]
    calc |a| * |x| ≤ 1 * e := mul_le_mul ha hx (abs_nonneg _) (by norm_num)
      _ = e := one_mul e
  have h2 : |b * y| ≤ e := by
    rw [abs_mul]
    calc |b| * |y| ≤ 1 * e := mul_le_mul hb hy (abs_nonneg _) (by norm_num)
      _ = e := one_mul e
  have := abs_add_le (a * x) (b * y)
  linarith

/-- The inverse: opposite heading, and both exact compositions with it are near the identity. -/
theorem C97_inverse (m : Libm) (hm : m.Accurate) (P : AlMath.Pose2D) (hP : IsRep P) (A : ℝ) (hA : Within P A) (hA' : A ≤ 2 ^ 120) :
    ∃ R, inverse m (hold P) = hold R ∧ IsRep R ∧ R.theta = -P.theta ∧
      Close (comp P R) ⟨0, 0, 0⟩ (2 ^ (-19 : ℤ) * A + 2 ^ (-147 : ℤ)) ∧
      Close (comp R P) ⟨0, 0, 0⟩ (2 ^ (-20 : ℤ) * A + 2 ^ (-148 : ℤ)) := by
  obtain ⟨R, h1, h2, h3, h4, h5⟩ := inverse_fin hm hP hA hA'
  have hA0 : 0 ≤ A := (abs_nonneg _).trans hA.1
  have hw : 10 * 2 ^ (-24 : ℤ) * A + 2 ^ (-148 : ℤ) ≤ 2 ^ (-20 : ℤ) * A + 2 ^ (-148 : ℤ) := by
    have : (10 * 2 ^ (-24 : ℤ) : ℝ) ≤ 2 ^ (-20 : ℤ) := by norm_num
    have := mul_le_mul_of_nonneg_right this hA0
    linarith
  have hw2 : 2 * (2 ^ (-20 : ℤ) * A + 2 ^ (-148 : ℤ)) = 2 ^ (-19 : ℤ) * A + 2 ^ (-147 : ℤ) := by
    norm_num
    ring
  have h4 := h4.trans hw
  have h5 := h5.trans hw
  have hcs := Real.cos_sq_add_sin_sq P.theta
  refine ⟨R, h1, h2, h3, ⟨?_, ?_⟩, ?_, ?_⟩
  · have := turn_le (a := Real.cos P.theta) (b := -Real.sin P.theta) (by rw [neg_sq]; exact hcs) h4 h5
    rw [hw2] at this
    convert this using 2
    simp only [comp]
    linear_combination (-P.x) * hcs
  · have := turn_le (a := Real.sin P.theta) (b := Real.cos P.theta) (by rw [add_comm]; exact hcs) h4 h5
    rw [hw2] at this
    convert this using 2
    simp only [comp]
    linear_combination (-P.y) * hcs
  · have e : (comp R P).x - 0 = R.x + (Real.cos P.theta * P.x + Real.sin P.theta * P.y) := by
      simp only [comp, h3, Real.cos_neg, Real.sin_neg]
      ring
    exact e ▸ h4
  · have e : (comp R P).y - 0 = R.y + (-Real.sin P.theta * P.x + Real.cos P.theta * P.y) := by
      simp only [comp, h3, Real.cos_neg, Real.sin_neg]
      ring
    exact e ▸ h5

/-- A pose times its inverse, both computed: the heading is exactly zero. -/
theorem C97_cancel (m : Libm) (hm : m.Accurate) (P : AlMath.Pose2D) (hP : IsRep P) (A : ℝ) (hA : Within P A) (hA' : A ≤ 2 ^ 118)
    (f : Bool) : ∃ R, composeBy m f (hold P) (inverse m (hold P)) = hold R ∧ R.theta = 0 ∧
      Close R ⟨0, 0, 0⟩ (2 ^ (-18 : ℤ) * A + 2 ^ (-146 : ℤ)) := by
  have hA0 : 0 ≤ A := (abs_nonneg _).trans hA.1
  obtain ⟨I, h1, h2, h3, h4, h5⟩ := inverse_fin hm hP hA (hA'.trans (by norm_num))
  have hcs := Real.cos_sq_add_sin_sq P.theta
  have b1 := turn_le (a := Real.cos P.theta) (b := Real.sin P.theta) hcs hA.1 hA.2
  have b2 := turn_le (a := -Real.sin P.theta) (b := Real.cos P.theta) (by rw [neg_sq, add_comm]; exact hcs) hA.1 hA.2
  have c1 := abs_sub (I.x + (Real.cos P.theta * P.x + Real.sin P.theta * P.y)) (Real.cos P.theta * P.x + Real.sin P.theta * P.y)
  have c2 := abs_sub (I.y + (-Real.sin P.theta * P.x + Real.cos P.theta * P.y)) (-Real.sin P.theta * P.x + Real.cos P.theta * P.y)
  rw [add_sub_cancel_right] at c1 c2
  set L := 2 * A + (10 * 2 ^ (-24 : ℤ) * A + 2 ^ (-148 : ℤ)) with hL
  have hI : Within I L := ⟨by linarith, by linarith⟩
  have hL' : L ≤ 2 ^ 120 := by
    rw [hL]
    norm_num at hA' ⊢
    linarith
  obtain ⟨R, k1, k2, k3, k4⟩ := C97_compose m hm P I hP h2 A L hA (hA'.trans (by norm_num)) hI hL' (by
    rw [h3, add_neg_cancel, abs_zero]; norm_num) f
  have hw2 := turn_le (a := Real.cos P.theta) (b := -Real.sin P.theta) (by rw [neg_sq]; exact hcs) h4 h5
  have hw3 := turn_le (a := Real.sin P.theta) (b := Real.cos P.theta) (by rw [add_comm]; exact hcs) h4 h5
  have e1 : (comp P I).x = Real.cos P.theta * (I.x + (Real.cos P.theta * P.x + Real.sin P.theta * P.y)) +
      -Real.sin P.theta * (I.y + (-Real.sin P.theta * P.x + Real.cos P.theta * P.y)) := by
    simp only [comp]
    linear_combination (-P.x) * hcs
  have e2 : (comp P I).y = Real.sin P.theta * (I.x + (Real.cos P.theta * P.x + Real.sin P.theta * P.y)) +
      Real.cos P.theta * (I.y + (-Real.sin P.theta * P.x + Real.cos P.theta * P.y)) := by
    simp only [comp]
    linear_combination (-P.y) * hcs
  rw [← e1] at hw2
  rw [← e2] at hw3
  have hb : (2 ^ (-22 : ℤ) * A + 2 ^ (-20 : ℤ) * L + 2 ^ (-148 : ℤ)) + 2 * (10 * 2 ^ (-24 : ℤ) * A + 2 ^ (-148 : ℤ)) ≤
      2 ^ (-18 : ℤ) * A + 2 ^ (-146 : ℤ) := by
    rw [hL]
    norm_num
    linarith
  refine ⟨R, by rw [h1, k1], ?_, ?_, ?_⟩
  · rw [h3, add_neg_cancel, abs_zero, mul_zero, sub_zero] at k4
    exact abs_eq_zero.1 (le_antisymm k4 (abs_nonneg _))
  · have := abs_sub_le R.x (comp P I).x 0
    rw [sub_zero (comp P I).x] at this
    have := k3.1
    show |R.x - 0| ≤ _
    linarith
  · have := abs_sub_le R.y (comp P I).y 0
    rw [sub_zero (comp P I).y] at this
    have := k3.2
    show |R.y - 0| ≤ _
    linarith

/-- `p.diff(q)` is the pose that leads from `p` to `q`. -/
theorem C97_diff (m : Libm) (hm : m.Accurate) (P Q : AlMath.Pose2D) (hP : IsRep P) (hQ : IsRep Q) (A : ℝ) (hA : Within P A)
    (hQA : Within Q A) (hA' : A ≤ 2 ^ 118) (ht : |Q.theta - P.theta| ≤ 2 ^ 127) :
    ∃ R, diff m (hold P) (hold Q) = hold R ∧ IsRep R ∧ Close (comp P R) Q (2 ^ (-17 : ℤ) * A + 2 ^ (-145 : ℤ)) ∧
      |(comp P R).theta - Q.theta| ≤ 2 ^ (-24 : ℤ) * |Q.theta - P.theta| := by
  have hA0 : 0 ≤ A := (abs_nonneg _).trans hA.1
  obtain ⟨I, h1, h2, h3, h4, h5⟩ := inverse_fin hm hP hA (hA'.trans (by norm_num))
  have hcs := Real.cos_sq_add_sin_sq P.theta
  have b1 := turn_le (a := Real.cos P.theta) (b := Real.sin P.theta) hcs hA.1 hA.2
  have b2 := turn_le (a := -Real.sin P.theta) (b := Real.cos P.theta) (by rw [neg_sq, add_comm]; exact hcs) hA.1 hA.2
  have c1 := abs_sub (I.x + (Real.cos P.theta * P.x + Real.sin P.theta * P.y)) (Real.cos P.theta * P.x + Real.sin P.theta * P.y)
  have c2 := abs_sub (I.y + (-Real.sin P.theta * P.x + Real.cos P.theta * P.y)) (-Real.sin P.theta * P.x + Real.cos P.theta * P.y)
  rw [add_sub_cancel_right] at c1 c2
  set L := 2 * A + (10 * 2 ^ (-24 : ℤ) * A + 2 ^ (-148 : ℤ)) with hL
  have hI : Within I L := ⟨by linarith, by linarith⟩
  have hL' : L ≤ 2 ^ 120 := by
    rw [hL]
    norm_num at hA' ⊢
    linarith
  have ht' : |I.theta + Q.theta| = |Q.theta - P.theta| := by
    rw [h3]
    congr 1
    ring
  obtain ⟨R, k1, k2, k3, k4⟩ := C97_compose m hm I Q h2 hQ L A hI hL' hQA (hA'.trans (by norm_num)) (by rw [ht']; exact ht) true
  set e := (2 ^ (-22 : ℤ) * L + 2 ^ (-20 : ℤ) * A + 2 ^ (-148 : ℤ)) + (10 * 2 ^ (-24 : ℤ) * A + 2 ^ (-148 : ℤ)) with he
  have d1 : |R.x - (-(Real.cos P.theta * P.x + Real.sin P.theta * P.y) + Real.cos P.theta * Q.x + Real.sin P.theta * Q.y)| ≤ e := by
    have q := k3.1
    simp only [comp, h3, Real.cos_neg, Real.sin_neg] at q
    rw [abs_le] at q h4 ⊢
    constructor <;> linarith
  have d2 : |R.y - (-(-Real.sin P.theta * P.x + Real.cos P.theta * P.y) + -Real.sin P.theta * Q.x + Real.cos P.theta * Q.y)| ≤ e := by
    have q := k3.2
    simp only [comp, h3, Real.cos_neg, Real.sin_neg] at q
    rw [abs_le] at q h5 ⊢
    constructor <;> linarith
  have hb : 2 * e ≤ 2 ^ (-17 : ℤ) * A + 2 ^ (-145 : ℤ) := by
    rw [he, hL]
    norm_num
    linarith
  refine ⟨R, ?_, k2, ⟨?_, ?_⟩, ?_⟩
  · rw [diff, h1]
    exact k1
  · refine le_trans (le_of_eq ?_) ((turn_le (a := Real.cos P.theta) (b := -Real.sin P.theta) (by rw [neg_sq]; exact hcs) d1 d2).trans hb)
    congr 1
    simp only [comp]
    linear_combination (Q.x - P.x) * hcs
  · refine le_trans (le_of_eq ?_) ((turn_le (a := Real.sin P.theta) (b := Real.cos P.theta) (by rw [add_comm]; exact hcs) d1 d2).trans hb)
    congr 1
    simp only [comp]
    linear_combination (Q.y - P.y) * hcs
  · rw [ht', h3] at k4
    refine le_trans (le_of_eq ?_) k4
    congr 1
    simp only [comp]
    ring

/-! ### Where rounding changes what is computed -/

theorem rnd_bin23 {x : ℝ} {n : ℤ} (h1 : 8388608 ≤ x) (h2 : x < 16777216) (hn : |x - n| < 1 / 2) : rnd x = n := by
  have hl : lastBit x = 0 := by
    have : Int.log 2 |x| = 23 := by
      rw [abs_of_pos (by linarith)]
      apply le_antisymm
      · have := (Int.lt_zpow_iff_log_lt (b := 2) (x := 24) (by norm_num) (by linarith : 0 < x)).1 (by norm_num; exact h2)
        omega
      · exact (Int.zpow_le_iff_le_log (b := 2) (x := 23) (by norm_num) (by linarith : 0 < x)).1 (by norm_num; exact h1)
    rw [lastBit, this]
    norm_num
  rw [rnd, hl]
  simp only [zpow_zero, div_one, mul_one]
  have h3 := nearestInt_min x n
  have h4 : |((nearestInt x : ℤ) : ℝ) - n| < 1 := by
    have := abs_sub_le ((nearestInt x : ℤ) : ℝ) x n
    rw [abs_sub_comm (n : ℝ) x] at h3
    linarith
  have h5 : |nearestInt x - n| < 1 := by exact_mod_cast h4
  rw [abs_lt] at h5
  rw [show nearestInt x = n by omega]

/-- A robot that turns by one radian per step: its heading is exact up to 2^24 steps and never changes afterwards. The heading
is not brought back into one turn. -/
theorem C97_heading_stops (m : Libm) (x y : ℝ) (l : List (Bool × AlMath.Pose2D))
    (hl : ∀ q ∈ l, q.2.theta = 1) : (path m ⟨x, y, 0⟩ l).theta = fin (min l.length 16777216 : ℕ) := by
  induction l using List.reverseRecOn with
  | nil => simp [path, hold]
  | append_singleton l q ih =>
    have h1 := hl q (by simp)
    rw [path_append]
    have e : (composeBy m q.1 (path m ⟨x, y, 0⟩ l) (hold q.2)).theta = add (path m ⟨x, y, 0⟩ l).theta (fin 1) := by
      rcases q with ⟨f, q⟩
      cases f <;> simp only [composeBy, hold, mul, mulAssign, if_true, if_false, Bool.false_eq_true] at h1 ⊢ <;> rw [h1]
    rw [e, ih (fun q' hq' => hl q' (by simp [hq']))]
    have hb : ((min l.length 16777216 : ℕ) : ℝ) ≤ 16777216 := by
      exact_mod_cast min_le_right _ _
    have hb0 : (0 : ℝ) ≤ ((min l.length 16777216 : ℕ) : ℝ) := Nat.cast_nonneg _
    have hbig : (16777217 : ℝ) ≤ 2 ^ 127 := by norm_num
    rw [add_fin (by rw [abs_of_nonneg (by linarith)]; linarith)]
    congr 1
    rw [add_comm, List.length_append, List.length_singleton]
    rcases Nat.eq_zero_or_pos l.length with h0 | h0
    · rw [h0]
      simpa using rnd_of_grid Rep.one.grid
    · obtain ⟨n, hn⟩ : ∃ n, l.length = n + 1 := ⟨l.length - 1, by omega⟩
      rw [hn]
      exact rnd_count n

/-- `p *= q` and `p = p * q` differ, whatever the accurate cosine and sine: they add the same numbers in another order. -/
theorem C97_forms_differ (m : Libm) (hm : m.Accurate) :
    (mulAssign m (hold ⟨16777216, 0, 1⟩) (hold ⟨1, 1, 0⟩)).x = fin 16777216 ∧
      (mul m (hold ⟨16777216, 0, 1⟩) (hold ⟨1, 1, 0⟩)).x = fin 16777215 := by
  obtain ⟨c, hc, rc, ec⟩ := hm.cos 1 Rep.one
  obtain ⟨s, hs, rs, es⟩ := hm.sin 1 Rep.one
  have c1 : Real.cos 1 ≤ 5 / 9 := Real.cos_one_le
  have c2 : 1 / 2 ≤ Real.cos 1 := by
    have := Real.one_sub_sq_div_two_le_cos (x := 1)
    linarith
  have s0 : 0 < Real.sin 1 := Real.sin_pos_of_pos_of_lt_pi (by norm_num) (by linarith [Real.pi_gt_three])
  have hcs := Real.cos_sq_add_sin_sq 1
  have s1 : Real.sin 1 ≤ 7 / 8 := by nlinarith
  have s2 : 4 / 5 ≤ Real.sin 1 := by nlinarith
  have h23 : (2 : ℝ) ^ (-23 : ℤ) ≤ 1 / 1000 := by norm_num
  have ec := ec.trans h23
  have es := es.trans h23
  rw [abs_le] at ec es
  have hbig : (16777218 : ℝ) ≤ 2 ^ 127 := by norm_num
  have hmc : F32.mul (fin c) (fin 1) = fin c := by
    rw [mul_fin (by rw [mul_one, abs_le]; constructor <;> linarith), mul_one, rnd_of_grid rc.grid]
  have hms : F32.mul (fin s) (fin 1) = fin s := by
    rw [mul_fin (by rw [mul_one, abs_le]; constructor <;> linarith), mul_one, rnd_of_grid rs.grid]
  have hr1 : |rnd (c - s) - (c - s)| ≤ 1 / 1000 := by
    refine (rnd_gen _).trans ?_
    have : |c - s| ≤ 1 := by
      rw [abs_le]
      constructor <;> linarith
    have h150 : (2 : ℝ) ^ (-150 : ℤ) ≤ 1 / 10000 := by
      rw [show (2 : ℝ) ^ (-150 : ℤ) = 1 / 2 ^ 150 by norm_num]
      norm_num
    rw [two_neg24]
    linarith
  rw [abs_le] at hr1
  constructor
  · simp only [mulAssign, hold, hc, hs, hmc, hms]
    rw [sub_fin (by rw [abs_le]; constructor <;> linarith), add_fin (by rw [abs_le]; constructor <;> linarith)]
    rw [rnd_bin23 (n := 16777216) (by linarith) (by linarith) (by rw [abs_lt]; constructor <;> push_cast <;> linarith)]
    norm_num
  · simp only [mul, hold, hc, hs, hmc, hms]
    have e : rnd (16777216 + c) = 16777216 := by
      apply le_antisymm
      · calc rnd (16777216 + c) ≤ rnd (1 + 16777216) := rnd_mono (by linarith)
          _ = 16777216 := rnd_two24
      · exact le_rnd_of_le (by exact_mod_cast (rep_nat (n := 16777216) le_rfl).grid) (by linarith)
    rw [add_fin (by rw [abs_le]; constructor <;> linarith), e, sub_fin (by rw [abs_le]; constructor <;> linarith)]
    rw [rnd_bin23 (n := 16777215) (by linarith) (by linarith) (by rw [abs_lt]; constructor <;> push_cast <;> linarith)]
    norm_num

/-! ### Examples -/

theorem rep_two' : Rep 2 := by exact_mod_cast rep_nat (n := 2) (by norm_num)

theorem sample_rep : IsRep ⟨2, 1, 1⟩ := ⟨rep_two', Rep.one, Rep.one⟩

theorem sample_within : Within ⟨2, 1, 1⟩ 2 := by norm_num [Within]

example (f : Bool) : ∃ R, composeBy Libm.rounded f (hold ⟨2, 1, 1⟩) (hold ⟨2, 1, 1⟩) = hold R ∧
    Close R (comp ⟨2, 1, 1⟩ ⟨2, 1, 1⟩) (1 / 100000) ∧ R.theta = 2 := by
  obtain ⟨R, h1, -, h2, h3⟩ := C97_compose Libm.rounded rounded_accurate ⟨2, 1, 1⟩ ⟨2, 1, 1⟩ sample_rep sample_rep 2 2
    sample_within (by norm_num) sample_within (by norm_num) (by norm_num) f
  have hb : (2 : ℝ) ^ (-22 : ℤ) * 2 + 2 ^ (-20 : ℤ) * 2 + 2 ^ (-148 : ℤ) ≤ 1 / 100000 := by norm_num
  refine ⟨R, h1, ⟨h2.1.trans hb, h2.2.trans hb⟩, ?_⟩
  have ht : (hold R).theta = add (fin 1) (fin 1) := by
    rw [← h1]
    cases f <;> rfl
  rw [add_fin (by norm_num), show (1 + 1 : ℝ) = 2 by norm_num, rnd_of_grid rep_two'.grid] at ht
  simpa [hold] using ht

example : ∃ R, path Libm.rounded ⟨2, 1, 1⟩ (List.replicate 1000 (true, ⟨1, 0, 0⟩)) = hold R ∧
    Close R (exactPath ⟨2, 1, 1⟩ (List.replicate 1000 (true, ⟨1, 0, 0⟩))) 2 := by
  have hex : ∀ k, (exactPath ⟨2, 1, 1⟩ (List.replicate k (true, ⟨1, 0, 0⟩))).theta = 1 := by
    intro k
    induction k with
    | zero => simp [exactPath]
    | succ k ih => rw [List.replicate_succ', exactPath_append, comp, ih]; norm_num
  obtain ⟨R, h1, -, -, h2⟩ := C97_path Libm.rounded rounded_accurate ⟨2, 1, 1⟩ (List.replicate 1000 (true, ⟨1, 0, 0⟩)) 2 1 1
    sample_rep sample_within (by norm_num) (by
      intro q hq
      rw [List.mem_replicate] at hq
      rw [hq.2]
      exact ⟨⟨Rep.one, Rep.zero, Rep.zero⟩, by norm_num [Within]⟩) (by norm_num) (by norm_num) (by
      intro k hk
      rw [List.take_replicate, hex]
      norm_num) (by norm_num) (by norm_num)
  have hb : (((List.replicate 1000 (true, (⟨1, 0, 0⟩ : AlMath.Pose2D))).length : ℕ) : ℝ) = 1000 := by norm_num
  rw [hb] at h2
  exact ⟨R, h1, h2.1.trans (by norm_num), h2.2.trans (by norm_num)⟩

example : ∃ R, changeReference Libm.rounded (fin 1) (hold ⟨2, 1, 1⟩) = hold R ∧ R.theta = 1 :=
  let ⟨R, h1, _, h2, _⟩ := C97_turn Libm.rounded rounded_accurate 1 Rep.one ⟨2, 1, 1⟩ sample_rep 2 sample_within (by norm_num)
  ⟨R, h1, h2⟩

example : ∃ X Y, act Libm.rounded (hold ⟨2, 1, 1⟩) ⟨fin 1, fin 1⟩ = ⟨fin X, fin Y⟩ :=
  let ⟨X, Y, h, _⟩ := C97_act Libm.rounded rounded_accurate ⟨2, 1, 1⟩ 1 1 sample_rep 2 1 sample_within (by norm_num) (by norm_num)
    (by norm_num) (by norm_num)
  ⟨X, Y, h⟩

example : ∃ R, inverse Libm.rounded (hold ⟨2, 1, 1⟩) = hold R ∧ R.theta = -1 :=
  let ⟨R, h1, _, h2, _⟩ := C97_inverse Libm.rounded rounded_accurate ⟨2, 1, 1⟩ sample_rep 2 sample_within (by norm_num)
  ⟨R, h1, h2⟩

example (f : Bool) : ∃ R, composeBy Libm.rounded f (hold ⟨2, 1, 1⟩) (inverse Libm.rounded (hold ⟨2, 1, 1⟩)) = hold R ∧
    R.theta = 0 ∧ Close R ⟨0, 0, 0⟩ (1 / 100000) := by
  obtain ⟨R, h1, h2, h3⟩ := C97_cancel Libm.rounded rounded_accurate ⟨2, 1, 1⟩ sample_rep 2 sample_within (by norm_num) f
  exact ⟨R, h1, h2, h3.1.trans (by norm_num), h3.2.trans (by norm_num)⟩

example : ∃ R, diff Libm.rounded (hold ⟨2, 1, 1⟩) (hold ⟨1, 0, 0⟩) = hold R ∧ Close (comp ⟨2, 1, 1⟩ R) ⟨1, 0, 0⟩ (1 / 10000) := by
  obtain ⟨R, h1, -, h2, -⟩ := C97_diff Libm.rounded rounded_accurate ⟨2, 1, 1⟩ ⟨1, 0, 0⟩ sample_rep ⟨Rep.one, Rep.zero, Rep.zero⟩ 2
    sample_within (by norm_num [Within]) (by norm_num) (by norm_num)
  exact ⟨R, h1, h2.1.trans (by norm_num), h2.2.trans (by norm_num)⟩

/-- All the headings after 2^24 turns of one radian are the same. -/
example (m : Libm) (n : ℕ) (hn : 16777216 ≤ n) : (path m ⟨0, 0, 0⟩ (List.replicate n (true, ⟨0, 0, 1⟩))).theta = fin 16777216 := by
  rw [C97_heading_stops m 0 0 _ (by
    intro q hq
    rw [List.mem_replicate] at hq
    rw [hq.2]), List.length_replicate, min_eq_right hn]
  norm_num

example : mulAssign Libm.rounded (hold ⟨16777216, 0, 1⟩) (hold ⟨1, 1, 0⟩) ≠ mul Libm.rounded (hold ⟨16777216, 0, 1⟩) (hold ⟨1, 1, 0⟩) := by
  intro h
  obtain ⟨h1, h2⟩ := C97_forms_differ Libm.rounded rounded_accurate
  rw [h, h2] at h1
  norm_num at h1

end AlMath.F32.Pose2D
