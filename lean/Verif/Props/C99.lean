import Verif.Props.C98

/-!
C99: avoiding collisions of feet in single precision.
-/

namespace AlMath.F32

namespace Spec

/-- The collision test, as computed, answers true for the supporting foot and the other foot moved by the pose. Not in /repo:
specification (what the test means is the subject of C98). -/
def Collides (m : Libm) (support swing : List Position2D) (p : Pose2D) : Prop :=
  areTwoBoxesInCollision support (swing.map fun v => Pose2D.act m p v) = .ok true

/-- One of the coordinates is NaN. Not in /repo: specification. -/
def HasNan (p : Position2D) : Prop := p.x = nan ∨ p.y = nan

end Spec

open Spec

/-! ### The bisection -/

theorem dichoStep_eq (m : Libm) (f s : List Position2D) (d : DichoState) :
    (Collides m f s ⟨d.pose.x, d.pose.y, mul (add d.min d.max) (fin (1 / 2))⟩ ∧ dichoStep m f s d =
      .ok ⟨d.min, mul (add d.min d.max) (fin (1 / 2)), d.best, d.pose.x, d.pose.y, mul (add d.min d.max) (fin (1 / 2))⟩) ∨
    (¬ Collides m f s ⟨d.pose.x, d.pose.y, mul (add d.min d.max) (fin (1 / 2))⟩ ∧ dichoStep m f s d =
      .ok ⟨mul (add d.min d.max) (fin (1 / 2)), d.max, mul (add d.min d.max) (fin (1 / 2)), d.pose.x, d.pose.y,
        mul (add d.min d.max) (fin (1 / 2))⟩) := by
  obtain ⟨r, hr⟩ := C98_total f (s.map fun v => Pose2D.act m ⟨d.pose.x, d.pose.y, mul (add d.min d.max) (fin (1 / 2))⟩ v)
  unfold dichoStep Collides computeBox
  dsimp only
  rw [hr, Res.bind_ok]
  cases r
  · right; exact ⟨by simp, by simp⟩
  · left; exact ⟨rfl, by simp⟩

/-- A property of the state that every turn keeps holds at the end. -/
theorem dicho_invariant (m : Libm) (f s : List Position2D) (I : ℕ → DichoState → Prop)
    (step : ∀ n d, I n d → ∃ d', dichoStep m f s d = .ok d' ∧ I (n + 1) d') (j n : ℕ) (d : DichoState) (h : I n d) :
    ∃ d', dichoLoop m f s j d = .ok d' ∧ I (n + j) d' := by
  induction j generalizing n d with
  | zero => exact ⟨d, rfl, h⟩
  | succ j ih =>
    obtain ⟨d1, e1, h1⟩ := step n d h
    obtain ⟨d2, e2, h2⟩ := ih (n + 1) d1 h1
    refine ⟨d2, ?_, by rwa [show n + (j + 1) = n + 1 + j by omega]⟩
    unfold dichoLoop
    rw [e1, Res.bind_ok, e2]

/-- The two calls of the public function. -/
theorem avoid_eq (m : Libm) (left right : List Position2D) (isLeft : Bool) (p : Pose2D) :
    let f := if isLeft then left else right
    let s := if isLeft then right else left
    (Collides m f s p ∧ avoidFootCollision m left right isLeft p = (dichotomie m f s p).bind fun p => .ok (true, p)) ∨
    (¬ Collides m f s p ∧ avoidFootCollision m left right isLeft p = .ok (false, p)) := by
  intro f s
  obtain ⟨r, hr⟩ := C98_total f (s.map fun v => Pose2D.act m p v)
  have e : avoidFootCollision m left right isLeft p = (areTwoBoxesInCollision f (computeBox m s p)).bind fun r =>
      if r then (dichotomie m f s p).bind fun p => .ok (true, p) else .ok (false, p) := by
    cases isLeft <;> rfl
  rw [e]
  unfold Collides computeBox
  rw [hr, Res.bind_ok]
  cases r
  · right; exact ⟨by simp, by simp⟩
  · left; exact ⟨rfl, by simp⟩

/-- `avoidFootCollision` always returns, whatever the boxes and the move. The flag says whether the requested move collides.
The position is kept. Without collision the move is unchanged. With collision, the new angle is 0 or one at which the test
finds no collision. -/
theorem C99_avoid (m : Libm) (left right : List Position2D) (isLeft : Bool) (p : Pose2D) :
    ∃ c p', avoidFootCollision m left right isLeft p = .ok (c, p') ∧
      (c = true ↔ Collides m (if isLeft then left else right) (if isLeft then right else left) p) ∧
      p'.x = p.x ∧ p'.y = p.y ∧ (c = false → p' = p) ∧
      (c = true → p'.theta = fin 0 ∨ ¬ Collides m (if isLeft then left else right) (if isLeft then right else left) p') := by
  rcases avoid_eq m left right isLeft p with ⟨h, e⟩ | ⟨h, e⟩
  · obtain ⟨d, e1, h1, h2, h3⟩ := dicho_invariant m (if isLeft then left else right) (if isLeft then right else left)
      (fun _ d => d.pose.x = p.x ∧ d.pose.y = p.y ∧ (d.best = fin 0 ∨
        ¬ Collides m (if isLeft then left else right) (if isLeft then right else left) ⟨p.x, p.y, d.best⟩))
      (by
        rintro n d ⟨h1, h2, h3⟩
        rcases dichoStep_eq m (if isLeft then left else right) (if isLeft then right else left) d with ⟨hc, e⟩ | ⟨hc, e⟩
        · exact ⟨_, e, h1, h2, h3⟩
        · refine ⟨_, e, h1, h2, .inr ?_⟩
          rw [h1, h2] at hc
          exact hc)
      5 0 ⟨fin 0, p.theta, fin 0, p⟩ ⟨rfl, rfl, .inl rfl⟩
    refine ⟨true, ⟨d.pose.x, d.pose.y, d.best⟩, ?_, by simp [h], h1, h2, by simp, fun _ => ?_⟩
    · rw [e, dichotomie, e1, Res.bind_ok, Res.bind_ok]
    · rw [h1, h2]
      exact h3
  · exact ⟨false, p, e, by simp [h], rfl, rfl, fun _ => rfl, by simp⟩

/-- If the test finds a collision at every angle, the angle becomes 0. -/
theorem avoid_blocked (m : Libm) (left right : List Position2D) (isLeft : Bool) (p : Pose2D)
    (h : Collides m (if isLeft then left else right) (if isLeft then right else left) p)
    (T : F32 → Prop) (h0 : T p.theta) (hT : ∀ t, T t → T (mul (add (fin 0) t) (fin (1 / 2))))
    (hc : ∀ t, T t → Collides m (if isLeft then left else right) (if isLeft then right else left) ⟨p.x, p.y, t⟩) :
    avoidFootCollision m left right isLeft p = .ok (true, ⟨p.x, p.y, fin 0⟩) := by
  rcases avoid_eq m left right isLeft p with ⟨-, e⟩ | ⟨h', -⟩
  · obtain ⟨d, e1, h1, h2, h3, -⟩ := dicho_invariant m (if isLeft then left else right) (if isLeft then right else left)
      (fun _ d => d.pose.x = p.x ∧ d.pose.y = p.y ∧ d.best = fin 0 ∧ d.min = fin 0 ∧ T d.max)
      (by
        rintro n d ⟨h1, h2, h3, h4, h5⟩
        rcases dichoStep_eq m (if isLeft then left else right) (if isLeft then right else left) d with ⟨hc', e⟩ | ⟨hc', e⟩
        · refine ⟨_, e, h1, h2, h3, h4, ?_⟩
          simp only [h4]
          exact hT _ h5
        · rw [h1, h2, h4] at hc'
          exact absurd (hc _ (hT _ h5)) hc')
      5 0 ⟨fin 0, p.theta, fin 0, p⟩ ⟨rfl, rfl, rfl, rfl, h0⟩
    rw [e, dichotomie, e1, Res.bind_ok, Res.bind_ok]
    dsimp only
    rw [h1, h2, h3]
  · exact absurd h h'

/-! ### NaN -/

theorem right_nan {u : Position2D} (h : HasNan u) (v p : Position2D) : Right u v p := by
  unfold Right
  have : sub (mul (sub v.x u.x) (sub p.y u.y)) (mul (sub v.y u.y) (sub p.x u.x)) = nan := by
    rcases h with h | h <;> simp only [h, sub_nan, nan_mul, mul_nan, nan_sub]
  rw [this]
  simp [le, lt, eq]

/-- Sides with a NaN are said to intersect, unless the first one is tiny. -/
theorem meet_nan {a1 a2 b1 b2 : Position2D} (h : HasNan a1 ∨ HasNan b1)
    (ht : ¬ (lt (abs (sub a2.x a1.x)) (round 0.00001) ∧ lt (abs (sub a2.y a1.y)) (round 0.00001))) :
    SidesMeet a1 a2 b1 b2 := by
  have hd : sub (mul (sub b2.x b1.x) (sub a2.y a1.y)) (mul (sub a2.x a1.x) (sub b2.y b1.y)) = nan := by
    rcases h with (h | h) | (h | h) <;> simp only [h, sub_nan, nan_mul, mul_nan, nan_sub]
  have hq : ∀ a, div a nan = nan := by intro a; cases a <;> rfl
  have hq' : ∀ a, div nan a = nan := by intro a; cases a <;> rfl
  have hl : ∀ a, ¬ lt nan a := nan_not_lt
  have hl' : ∀ a, ¬ lt a nan := by intro a; cases a <;> exact id
  unfold SidesMeet
  dsimp only [intersectionSegment2D, xIntersectionSegment2D]
  rw [hd, hq, if_neg (show ¬ lt (abs nan) (round 0.00001) from hl _), if_neg (by rintro (k | k); exacts [hl _ k, hl' _ k]),
    if_neg ht, nan_mul, nan_mul, add_nan, add_nan, hq', hq', ite_self, if_neg (by rintro (k | k); exacts [hl _ k, hl' _ k])]

theorem nan_not_tiny {a1 a2 : Position2D} (h : HasNan a1) :
    ¬ (lt (abs (sub a2.x a1.x)) (round 0.00001) ∧ lt (abs (sub a2.y a1.y)) (round 0.00001)) := by
  rintro ⟨h1, h2⟩
  rcases h with h | h
  · rw [h, sub_nan] at h1
    exact nan_not_lt _ h1
  · rw [h, sub_nan] at h2
    exact nan_not_lt _ h2

theorem collide_empty {a b : List Position2D} (h : a = [] ∧ b ≠ [] ∨ a ≠ [] ∧ b = []) : areTwoBoxesInCollision a b = .ok true := by
  obtain ⟨r, e, hr⟩ := collision_eq a b
  rw [e]
  congr 1
  rw [hr]
  rcases h with ⟨rfl, h⟩ | ⟨h, rfl⟩
  · obtain ⟨x, l, rfl⟩ := List.exists_cons_of_ne_nil h
    exact .inr (.inr ⟨x, rfl, by rintro u v ⟨i, hi, -⟩; simp at hi⟩)
  · obtain ⟨x, l, rfl⟩ := List.exists_cons_of_ne_nil h
    exact .inr (.inl ⟨x, rfl, by rintro u v ⟨i, hi, -⟩; simp at hi⟩)

theorem collide_all_nan {a b : List Position2D} (ha : a ≠ [] ∨ b ≠ []) (hb : ∀ v ∈ b, HasNan v) :
    areTwoBoxesInCollision a b = .ok true := by
  by_cases h1 : a = []
  · exact collide_empty (.inl ⟨h1, ha.resolve_left fun k => k h1⟩)
  by_cases h2 : b = []
  · exact collide_empty (.inr ⟨h1, h2⟩)
  obtain ⟨r, e, hr⟩ := collision_eq a b
  rw [e]
  congr 1
  rw [hr]
  obtain ⟨x, l, rfl⟩ := List.exists_cons_of_ne_nil h1
  refine .inr (.inl ⟨x, rfl, ?_⟩)
  rintro u v ⟨i, hi, h3, h4⟩
  exact right_nan (hb u (List.mem_of_getElem? h3)) v x

theorem isSide_of_mem {box : List Position2D} {u : Position2D} (h : u ∈ box) : ∃ v, IsSide box u v := by
  obtain ⟨i, hi⟩ := List.mem_iff_getElem?.1 h
  have hlt : i < box.length := by
    by_contra hc
    rw [List.getElem?_eq_none (by omega)] at hi
    cases hi
  exact ⟨_, i, hlt, hi, vtx_get (by omega) (i + 1)⟩

theorem collide_nan_first {a b : List Position2D} (ha : ∃ v ∈ a, HasNan v) : areTwoBoxesInCollision a b = .ok true := by
  obtain ⟨u, hu, hn⟩ := ha
  by_cases h2 : b = []
  · exact collide_empty (.inr ⟨List.ne_nil_of_mem hu, h2⟩)
  obtain ⟨x, l, rfl⟩ := List.exists_cons_of_ne_nil h2
  obtain ⟨v, hs⟩ := isSide_of_mem hu
  obtain ⟨y, hs2⟩ := isSide_of_mem (box := x :: l) (u := x) (by simp)
  obtain ⟨r, e, hr⟩ := collision_eq a (x :: l)
  rw [e]
  congr 1
  rw [hr]
  exact .inl ⟨u, v, x, y, hs, hs2, meet_nan (.inl hn) (nan_not_tiny hn)⟩

theorem collide_nan_second {a b : List Position2D} (hb : ∃ v ∈ b, HasNan v) (ha : ∃ u v, IsSide a u v ∧
    ¬ (lt (abs (sub v.x u.x)) (round 0.00001) ∧ lt (abs (sub v.y u.y)) (round 0.00001))) : areTwoBoxesInCollision a b = .ok true := by
  obtain ⟨w, hw, hn⟩ := hb
  obtain ⟨u, v, hs, ht⟩ := ha
  obtain ⟨y, hs2⟩ := isSide_of_mem hw
  obtain ⟨r, e, hr⟩ := collision_eq a b
  rw [e]
  congr 1
  rw [hr]
  exact .inl ⟨u, v, w, y, hs, hs2, meet_nan (.inr hn) ht⟩

/-- A move with NaN in its position is never taken to be free of collision: the flag is true and the angle is set to 0, whatever
the boxes (unless both are empty). -/
theorem C99_nan_move (m : Libm) (left right : List Position2D) (isLeft : Bool) (p : Pose2D) (h : p.x = nan ∨ p.y = nan)
    (hne : left ≠ [] ∨ right ≠ []) : avoidFootCollision m left right isLeft p = .ok (true, ⟨p.x, p.y, fin 0⟩) := by
  have hc : ∀ t, Collides m (if isLeft then left else right) (if isLeft then right else left) ⟨p.x, p.y, t⟩ := by
    intro t
    refine collide_all_nan ?_ ?_
    · cases isLeft
      · simpa [or_comm] using hne
      · simpa using hne
    · intro v hv
      obtain ⟨w, -, rfl⟩ := List.mem_map.1 hv
      rcases h with h | h
      · exact .inl (by simp only [Pose2D.act, h, nan_add, nan_sub])
      · exact .inr (by simp only [Pose2D.act, h, nan_add])
  exact avoid_blocked m left right isLeft p (hc _) (fun _ => True) trivial (fun _ _ => trivial) fun t _ => hc t

/-- The same for a move whose angle is NaN, the cosine and the sine of NaN being NaN. -/
theorem C99_nan_angle (m : Libm) (hm : m.cos nan = nan ∧ m.sin nan = nan) (left right : List Position2D) (isLeft : Bool)
    (p : Pose2D) (h : p.theta = nan) (hne : left ≠ [] ∨ right ≠ []) :
    avoidFootCollision m left right isLeft p = .ok (true, ⟨p.x, p.y, fin 0⟩) := by
  have hc : ∀ t, t = nan → Collides m (if isLeft then left else right) (if isLeft then right else left) ⟨p.x, p.y, t⟩ := by
    rintro t rfl
    refine collide_all_nan ?_ ?_
    · cases isLeft
      · simpa [or_comm] using hne
      · simpa using hne
    · intro v hv
      obtain ⟨w, -, rfl⟩ := List.mem_map.1 hv
      exact .inl (by simp only [Pose2D.act, hm.1, nan_mul, add_nan, nan_sub])
  refine avoid_blocked m left right isLeft p ?_ (fun t => t = nan) h ?_ hc
  · have := hc p.theta h
    exact this
  · rintro t rfl
    rfl

/-- The same for boxes with NaN: in the supporting foot, or in the other one if the supporting foot has a side that is not
tiny. -/
theorem C99_nan_box (m : Libm) (left right : List Position2D) (isLeft : Bool) (p : Pose2D)
    (h : (∃ v ∈ (if isLeft then left else right), HasNan v) ∨
      (∃ v ∈ (if isLeft then right else left), HasNan v) ∧ ∃ u v, IsSide (if isLeft then left else right) u v ∧
        ¬ (lt (abs (sub v.x u.x)) (round 0.00001) ∧ lt (abs (sub v.y u.y)) (round 0.00001))) :
    avoidFootCollision m left right isLeft p = .ok (true, ⟨p.x, p.y, fin 0⟩) := by
  have hc : ∀ t, Collides m (if isLeft then left else right) (if isLeft then right else left) ⟨p.x, p.y, t⟩ := by
    intro t
    rcases h with h | ⟨⟨v, hv, hn⟩, h2⟩
    · exact collide_nan_first h
    · refine collide_nan_second ⟨_, List.mem_map.2 ⟨v, hv, rfl⟩, ?_⟩ h2
      rcases hn with hn | hn
      · exact .inl (by simp only [Pose2D.act, hn, mul_nan, add_nan, nan_sub])
      · exact .inl (by simp only [Pose2D.act, hn, mul_nan, sub_nan])
  exact avoid_blocked m left right isLeft p (hc _) (fun _ => True) trivial (fun _ _ => trivial) fun t _ => hc t

/-! ### The angle -/

/-- The middle of an interval, as computed. -/
theorem mid_fin {x y T : ℝ} (hx : Rep x) (hy : Rep y) (h1 : |x| ≤ T) (h2 : |y| ≤ T) (hT : T ≤ 2 ^ 126) :
    ∃ z, mul (add (fin x) (fin y)) (fin (1 / 2)) = fin z ∧ Rep z ∧ |z - (x + y) / 2| ≤ 21 / 10 / 16777216 * T + 2 ^ (-150 : ℤ) ∧
      (x ≤ y → x ≤ z ∧ z ≤ y) ∧ (y ≤ x → y ≤ z ∧ z ≤ x) := by
  have h0 : 0 ≤ T := (abs_nonneg x).trans h1
  have t := abs_add_le x y
  have r := rnd_add hx.grid hy.grid
  have big : 2 * (2 : ℝ) ^ 126 ≤ 2 ^ 127 := by norm_num
  have b1 : |x + y| ≤ 2 ^ 127 := by linarith
  rw [two_neg24] at r
  have r' := le_of_err r
  have b2 : |rnd (x + y) * (1 / 2)| ≤ (1 + 1 / 16777216) * T := by
    rw [abs_mul, abs_of_pos (show (0 : ℝ) < 1 / 2 by norm_num)]
    linarith
  have b3 : |rnd (x + y) * (1 / 2)| ≤ 2 ^ 127 := b2.trans (by linarith)
  have dbl : ∀ {w : ℝ}, Rep w → Grid (2 * w) := by
    rintro w ⟨k, e, q1, q2, -, rfl⟩
    refine ⟨k, e + 1, q1, by omega, ?_⟩
    rw [zpow_add₀ (by norm_num)]
    ring
  have lo : ∀ {w : ℝ}, Rep w → 2 * w ≤ x + y → w ≤ rnd (rnd (x + y) * (1 / 2)) := by
    intro w hw k
    have := le_rnd_of_le (dbl hw) k
    exact le_rnd_of_le hw.grid (by linarith)
  have hi : ∀ {w : ℝ}, Rep w → x + y ≤ 2 * w → rnd (rnd (x + y) * (1 / 2)) ≤ w := by
    intro w hw k
    have := rnd_le_of_le (dbl hw) k
    exact rnd_le_of_le hw.grid (by linarith)
  refine ⟨rnd (rnd (x + y) * (1 / 2)), ?_, rnd_rep b3, ?_, fun k => ⟨lo hx (by linarith), hi hy (by linarith)⟩,
    fun k => ⟨lo hy (by linarith), hi hx (by linarith)⟩⟩
  · rw [add_fin b1, mul_fin b3]
  · have r2 := rnd_gen (rnd (x + y) * (1 / 2))
    rw [two_neg24] at r2
    have e : rnd (rnd (x + y) * (1 / 2)) - (x + y) / 2 =
        (rnd (rnd (x + y) * (1 / 2)) - rnd (x + y) * (1 / 2)) + (rnd (x + y) - (x + y)) * (1 / 2) := by ring
    rw [e]
    have a := abs_add_le (rnd (rnd (x + y) * (1 / 2)) - rnd (x + y) * (1 / 2)) ((rnd (x + y) - (x + y)) * (1 / 2))
    rw [abs_mul (rnd (x + y) - (x + y)), abs_of_pos (show (0 : ℝ) < 1 / 2 by norm_num)] at a
    clear big b1 b3 hT lo hi
    generalize (2 : ℝ) ^ (-150 : ℤ) = η at *
    linarith

/-- Invariant of the bisection: the interval is close to one of the `2^n` equal parts of `[0, t]`; its far end collides; its near
end, unless it is 0, does not. Helper of the proofs. Not in /repo: specification. -/
def Bracket (m : Libm) (f s : List Position2D) (p : Pose2D) (t E : ℝ) (n : ℕ) (d : DichoState) : Prop :=
  d.pose.x = p.x ∧ d.pose.y = p.y ∧ d.best = d.min ∧ ∃ (k : ℕ) (a b : ℝ), k < 2 ^ n ∧ d.min = fin a ∧ d.max = fin b ∧
    Rep a ∧ Rep b ∧ (0 ≤ a ∧ a ≤ b ∧ b ≤ t ∨ t ≤ b ∧ b ≤ a ∧ a ≤ 0) ∧
    |a - k / 2 ^ n * t| ≤ n * E ∧ |b - (k + 1) / 2 ^ n * t| ≤ n * E ∧ (k = 0 → a = 0) ∧
    (k ≠ 0 → ¬ Collides m f s ⟨p.x, p.y, fin a⟩) ∧ Collides m f s ⟨p.x, p.y, fin b⟩

theorem bracket_step (m : Libm) (f s : List Position2D) (p : Pose2D) {t E : ℝ} (hE : E = 21 / 10 / 16777216 * |t| + 2 ^ (-150 : ℤ))
    (ht : |t| ≤ 2 ^ 126) (n : ℕ) (d : DichoState) (h : Bracket m f s p t E n d) :
    ∃ d', dichoStep m f s d = .ok d' ∧ Bracket m f s p t E (n + 1) d' := by
  obtain ⟨h1, h2, h3, k, a, b, hk, ea, eb, ra, rb, ho, ka, kb, k0, kf, kc⟩ := h
  have ba : |a| ≤ |t| := by
    rcases ho with ⟨o1, o2, o3⟩ | ⟨o1, o2, o3⟩
    · rw [abs_of_nonneg o1, abs_of_nonneg (by linarith)]; linarith
    · rw [abs_of_nonpos o3, abs_of_nonpos (by linarith)]; linarith
  have bb : |b| ≤ |t| := by
    rcases ho with ⟨o1, o2, o3⟩ | ⟨o1, o2, o3⟩
    · rw [abs_of_nonneg (by linarith), abs_of_nonneg (by linarith)]; linarith
    · rw [abs_of_nonpos (by linarith), abs_of_nonpos (by linarith)]; linarith
  obtain ⟨z, ez, rz, kz, z1, z2⟩ := mid_fin ra rb ba bb ht
  rw [← hE] at kz
  have hE0 : 0 ≤ E := by
    rw [hE]
    have := eta_pos
    positivity
  have hmid : mul (add d.min d.max) (fin (1 / 2)) = fin z := by rw [ea, eb, ez]
  have hp : (2 : ℝ) ^ (n + 1) = 2 * 2 ^ n := by ring
  have h2n : (0 : ℝ) < 2 ^ n := by positivity
  have hz : |z - (2 * k + 1) / 2 ^ (n + 1) * t| ≤ (n + 1 : ℕ) * E := by
    have e : z - (2 * k + 1) / 2 ^ (n + 1) * t = (z - (a + b) / 2) + ((a - k / 2 ^ n * t) + (b - (k + 1) / 2 ^ n * t)) * (1 / 2) := by
      rw [hp]
      field_simp
      ring
    rw [e]
    have a1 := abs_add_le (z - (a + b) / 2) (((a - k / 2 ^ n * t) + (b - (k + 1) / 2 ^ n * t)) * (1 / 2))
    have a2 := abs_add_le (a - k / 2 ^ n * t) (b - (k + 1) / 2 ^ n * t)
    rw [abs_mul ((a - k / 2 ^ n * t) + (b - (k + 1) / 2 ^ n * t)), abs_of_pos (show (0 : ℝ) < 1 / 2 by norm_num)] at a1
    push_cast
    linarith
  have ho2 : 0 ≤ a ∧ a ≤ z ∧ z ≤ b ∧ b ≤ t ∨ t ≤ b ∧ b ≤ z ∧ z ≤ a ∧ a ≤ 0 := by
    rcases ho with ⟨o1, o2, o3⟩ | ⟨o1, o2, o3⟩
    · exact .inl ⟨o1, (z1 o2).1, (z1 o2).2, o3⟩
    · exact .inr ⟨o1, (z2 o2).1, (z2 o2).2, o3⟩
  have wk : ∀ {x : ℝ}, x ≤ n * E → x ≤ (n + 1 : ℕ) * E := by
    intro x hx
    push_cast
    linarith
  rcases dichoStep_eq m f s d with ⟨hc, he⟩ | ⟨hc, he⟩
  · rw [h1, h2, hmid] at hc
    rw [hmid] at he
    refine ⟨_, he, h1, h2, h3, 2 * k, a, z, by rw [pow_succ]; omega, ea, rfl, ra, rz, ?_, ?_, ?_, fun h => k0 (by omega),
      fun h => kf (by omega), hc⟩
    · rcases ho2 with ⟨o1, o2, o3, o4⟩ | ⟨o1, o2, o3, o4⟩
      · exact .inl ⟨o1, o2, by linarith⟩
      · exact .inr ⟨by linarith, o3, o4⟩
    · have e : ((2 * k : ℕ) : ℝ) / 2 ^ (n + 1) * t = k / 2 ^ n * t := by
        rw [hp]; push_cast; field_simp
      rw [e]
      exact wk ka
    · have e : (((2 * k : ℕ) : ℝ) + 1) / 2 ^ (n + 1) * t = (2 * k + 1) / 2 ^ (n + 1) * t := by push_cast; ring
      rw [e]
      exact hz
  · rw [h1, h2, hmid] at hc
    rw [hmid] at he
    refine ⟨_, he, h1, h2, rfl, 2 * k + 1, z, b, by rw [pow_succ]; omega, rfl, eb, rz, rb, ?_, ?_, ?_, fun h => by omega,
      fun _ => hc, kc⟩
    · rcases ho2 with ⟨o1, o2, o3, o4⟩ | ⟨o1, o2, o3, o4⟩
      · exact .inl ⟨by linarith, o3, o4⟩
      · exact .inr ⟨o1, o2, by linarith⟩
    · have e : ((2 * k + 1 : ℕ) : ℝ) / 2 ^ (n + 1) * t = (2 * k + 1) / 2 ^ (n + 1) * t := by push_cast; ring
      rw [e]
      exact hz
    · have e : (((2 * k + 1 : ℕ) : ℝ) + 1) / 2 ^ (n + 1) * t = (k + 1) / 2 ^ n * t := by
        rw [hp]; push_cast; field_simp; ring
      rw [e]
      exact wk kb

/-- With collision, the new angle is `k/32` of the requested one up to rounding, between 0 and the requested angle; it is 0 if
`k = 0` and otherwise free of collision, and an angle close to `(k+1)/32` of the requested one collides. -/
theorem C99_angle (m : Libm) (left right : List Position2D) (isLeft : Bool) (p p' : Pose2D) {t : ℝ} (hp : p.theta = fin t)
    (hr : Rep t) (ht : |t| ≤ 2 ^ 126) (h : avoidFootCollision m left right isLeft p = .ok (true, p')) :
    ∃ (k : ℕ) (a b : ℝ), k < 32 ∧ p' = ⟨p.x, p.y, fin a⟩ ∧ Rep a ∧ Rep b ∧ |a| ≤ |t| ∧ 0 ≤ a * t ∧
      |a - k / 32 * t| ≤ 2 ^ (-20 : ℤ) * |t| + 2 ^ (-147 : ℤ) ∧ |b - (k + 1) / 32 * t| ≤ 2 ^ (-20 : ℤ) * |t| + 2 ^ (-147 : ℤ) ∧
      (k = 0 → a = 0) ∧
      (k ≠ 0 → ¬ Collides m (if isLeft then left else right) (if isLeft then right else left) ⟨p.x, p.y, fin a⟩) ∧
      Collides m (if isLeft then left else right) (if isLeft then right else left) ⟨p.x, p.y, fin b⟩ := by
  rcases avoid_eq m left right isLeft p with ⟨hc, e⟩ | ⟨-, e⟩
  · have hc' : Collides m (if isLeft then left else right) (if isLeft then right else left) ⟨p.x, p.y, fin t⟩ := by
      rw [← hp]
      exact hc
    obtain ⟨d, e1, h1, h2, h3, k, a, b, hk, ea, eb, ra, rb, ho, ka, kb, k0, kf, kc⟩ := dicho_invariant m
      (if isLeft then left else right) (if isLeft then right else left)
      (Bracket m (if isLeft then left else right) (if isLeft then right else left) p t
        (21 / 10 / 16777216 * |t| + 2 ^ (-150 : ℤ)))
      (fun n d => bracket_step m _ _ p rfl ht n d) 5 0 ⟨fin 0, p.theta, fin 0, p⟩
      ⟨rfl, rfl, rfl, 0, 0, t, by norm_num, rfl, hp, Rep.zero, hr, by
        rcases le_total 0 t with h | h
        · exact .inl ⟨le_rfl, h, le_rfl⟩
        · exact .inr ⟨le_rfl, h, le_rfl⟩, by simp, by simp, fun _ => rfl, by simp, hc'⟩
    have hE : ((0 + 5 : ℕ) : ℝ) * (21 / 10 / 16777216 * |t| + 2 ^ (-150 : ℤ)) ≤ 2 ^ (-20 : ℤ) * |t| + 2 ^ (-147 : ℤ) := by
      have q1 : (2 : ℝ) ^ (-147 : ℤ) = 8 * 2 ^ (-150 : ℤ) := by
        rw [show (-147 : ℤ) = 3 + -150 by norm_num, zpow_add₀ (by norm_num)]
        norm_num
      have q2 : (2 : ℝ) ^ (-20 : ℤ) = 16 / 16777216 := by norm_num
      have := eta_pos
      have := abs_nonneg t
      rw [q1, q2]
      clear ht
      generalize (2 : ℝ) ^ (-150 : ℤ) = η at *
      push_cast
      linarith
    norm_num only at hk
    have e32 : (2 : ℝ) ^ (0 + 5) = 32 := by norm_num
    rw [e32] at ka kb
    have hp' : p' = ⟨p.x, p.y, fin a⟩ := by
      rw [e, dichotomie, e1, Res.bind_ok, Res.bind_ok] at h
      dsimp only at h
      rw [h1, h2, h3, ea] at h
      injection h with h
      exact (congrArg Prod.snd h).symm
    refine ⟨k, a, b, hk, hp', ra, rb, ?_, ?_, ka.trans hE, kb.trans hE, k0, kf, kc⟩
    · rcases ho with ⟨o1, o2, o3⟩ | ⟨o1, o2, o3⟩
      · rw [abs_of_nonneg o1, abs_of_nonneg (by linarith)]; linarith
      · rw [abs_of_nonpos o3, abs_of_nonpos (by linarith)]; linarith
    · rcases ho with ⟨o1, o2, o3⟩ | ⟨o1, o2, o3⟩
      · exact mul_nonneg o1 (by linarith)
      · exact mul_nonneg_of_nonpos_of_nonpos o3 (by linarith)
  · rw [e] at h
    injection h with h
    exact absurd (congrArg Prod.fst h) (by simp)

/-- A foot that is a point at the origin, moved into a square: the test finds a collision at every angle, so that the angle
becomes 0. -/
example (m : Libm) (hm : m.Accurate) : avoidFootCollision m (([⟨-1, 1⟩, ⟨-1, 3⟩, ⟨1, 3⟩, ⟨1, 1⟩] : List AlMath.Position2D).map point)
    [⟨fin 0, fin 0⟩] true ⟨fin 0, fin 2, fin (1 / 4)⟩ = .ok (true, ⟨fin 0, fin 2, fin 0⟩) := by
  have r1 : Rep 1 := Rep.one
  have r2 : Rep 2 := by simpa using Rep.two_zpow (e := 1) (by norm_num) (by norm_num)
  have r3 : Rep 3 := by
    have := rep_nat (n := 3) (by norm_num)
    exact_mod_cast this
  have hc : ∀ t, Rep t → Collides m (([⟨-1, 1⟩, ⟨-1, 3⟩, ⟨1, 3⟩, ⟨1, 1⟩] : List AlMath.Position2D).map point) [⟨fin 0, fin 0⟩]
      ⟨fin 0, fin 2, fin t⟩ := by
    intro t ht
    obtain ⟨c, ec, -⟩ := hm.cos t ht
    obtain ⟨s, es, -⟩ := hm.sin t ht
    have z : ∀ x, mul (fin x) (fin 0) = fin 0 := fun x => mul_exact (mul_zero x) Rep.zero.grid (by norm_num)
    have hb : ([⟨fin 0, fin 0⟩] : List Position2D).map (fun v => Pose2D.act m ⟨fin 0, fin 2, fin t⟩ v) =
        ([⟨0, 2⟩] : List AlMath.Position2D).map point := by
      simp only [List.map, Pose2D.act, ec, es, z, point]
      rw [add_exact (a := 0) (b := 0) (c := 0) (by norm_num) Rep.zero.grid (by norm_num),
        sub_exact (a := 0) (b := 0) (c := 0) (by norm_num) Rep.zero.grid (by norm_num),
        add_exact (a := 2) (b := 0) (c := 2) (by norm_num) r2.grid (by norm_num),
        add_exact (a := 2) (b := 0) (c := 2) (by norm_num) r2.grid (by norm_num)]
    unfold Collides
    rw [hb]
    refine C98_boxes_found (L := 3) ?_ ?_ (by norm_num) (by norm_num) (.inr (.inr ⟨⟨0, 2⟩, rfl, ?_⟩))
    · intro v hv
      simp only [List.mem_cons, List.not_mem_nil, or_false] at hv
      rcases hv with rfl | rfl | rfl | rfl
      · exact ⟨r1.neg, r1, by norm_num, by norm_num⟩
      · exact ⟨r1.neg, r3, by norm_num, by norm_num⟩
      · exact ⟨r1, r3, by norm_num, by norm_num⟩
      · exact ⟨r1, r1, by norm_num, by norm_num⟩
    · intro v hv
      simp only [List.mem_cons, List.not_mem_nil, or_false] at hv
      rw [hv]
      exact ⟨Rep.zero, r2, by norm_num, by norm_num⟩
    · rintro u v ⟨i, hi, h1, h2⟩
      have : i = 0 ∨ i = 1 ∨ i = 2 ∨ i = 3 := by
        simp only [List.length_cons, List.length_nil] at hi
        omega
      rcases this with rfl | rfl | rfl | rfl <;> simp at h1 h2 <;> subst h1 <;> subst h2 <;>
        norm_num [AlMath.Spec.side, AlMath.Position2D.pt]
  have r4 : Rep (1 / 4) := by
    have := Rep.two_zpow (e := -2) (by norm_num) (by norm_num)
    norm_num at this ⊢
    exact this
  refine avoid_blocked m _ _ true ⟨fin 0, fin 2, fin (1 / 4)⟩ (hc _ r4) (fun t => ∃ x, t = fin x ∧ Rep x ∧ |x| ≤ 1)
    ⟨1 / 4, rfl, r4, by norm_num [abs_le]⟩ ?_ ?_
  · rintro t ⟨x, rfl, hx, hx1⟩
    obtain ⟨z, e, hz, -, k1, k2⟩ := mid_fin Rep.zero hx (T := 1) (by norm_num) hx1 (by norm_num)
    refine ⟨z, e, hz, ?_⟩
    rw [abs_le] at hx1 ⊢
    rcases le_total 0 x with h | h
    · have := k1 h
      constructor <;> linarith
    · have := k2 h
      constructor <;> linarith
  · rintro t ⟨x, rfl, hx, -⟩
    exact hc x hx

/-- A move whose position is NaN. -/
example (m : Libm) : avoidFootCollision m [⟨fin 0, fin 0⟩] [⟨fin 1, fin 1⟩] false ⟨nan, fin 0, fin 1⟩ =
    .ok (true, ⟨nan, fin 0, fin 0⟩) := C99_nan_move m _ _ _ _ (.inl rfl) (.inl (by simp))

end AlMath.F32
