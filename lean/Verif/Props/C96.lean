import Verif.Model.PyText
import Verif.Props.C90

/-!
C96: the texts of objects in Python.
-/

namespace AlMath.PyText

open AlMath.F32 AlMath.Decimal

namespace Spec

/-- A member that holds a `float`: NaN, an infinity or a number of the format. Not in /repo: specification. -/
def IsFloat (f : F32) : Prop := ∀ x, f = fin x → Rep x

/-- An `int` of 32 bits. Not in /repo: specification. -/
def IsInt (n : ℤ) : Prop := -2 ^ 31 ≤ n ∧ n < 2 ^ 31

/-- A call in Python with named arguments: `name(k=v, k=v)`. Not in /repo: specification. -/
def pyCall (name : String) (args : List (String × List Char)) : List Char :=
  name.toList ++ "(".toList ++ (", ".toList).intercalate (args.map fun a => a.1.toList ++ "=".toList ++ a.2) ++ ")".toList

/-- What a text of a number says: the same value if it is not finite, otherwise the number up to 5 millionths. Not in /repo:
specification. -/
def SameNumber (a b : F32) : Prop :=
  a = b ∨ ∃ x y, a = fin x ∧ b = fin y ∧ |x - y| ≤ (|x| + |y|) * (5 / 1000000)

/-- The characters in texts of numbers. Not in /repo: specification. -/
def numberChars : List Char := "0123456789.e+-naif".toList

end Spec

open Spec

/-! ### Texts of numbers -/

theorem digitChar_number {d : ℕ} (h : d < 10) : Nat.digitChar d ∈ numberChars := by
  interval_cases d <;> decide

theorem map_number {l : List ℕ} (h : ∀ d ∈ l, d < 10) : ∀ c ∈ l.map Nat.digitChar, c ∈ numberChars := by
  intro c hc
  obtain ⟨d, hd, rfl⟩ := List.mem_map.1 hc
  exact digitChar_number (h d hd)

theorem point_number {i f : List ℕ} (hi : ∀ d ∈ i, d < 10) (hf : ∀ d ∈ f, d < 10) : ∀ c ∈ point i f, c ∈ numberChars := by
  unfold point
  intro c hc
  rcases List.mem_append.1 hc with h | h
  · exact map_number hi c h
  · split_ifs at h
    · simp at h
    · rcases List.mem_cons.1 h with rfl | h
      · decide
      · exact map_number hf c h

theorem exponent_number (X : ℤ) : ∀ c ∈ exponent X, c ∈ numberChars := by
  unfold exponent
  intro c hc
  rcases List.mem_cons.1 hc with rfl | hc
  · decide
  rcases List.mem_cons.1 hc with rfl | hc
  · split_ifs <;> decide
  · refine map_number ?_ c hc
    split_ifs with h
    · simp [h]
    · exact digits_lt _

theorem point_length (i f : List ℕ) : (point i f).length ≤ i.length + (1 + f.length) := by
  unfold point
  split_ifs <;> simp

theorem strip_length (l : List ℕ) : (strip l).length ≤ l.length :=
  (List.rdropWhile_prefix _ _).length_le

theorem printPos_text {p : ℕ} {x : ℝ} (hp : 0 < p) (hx : 0 < x) :
    (∀ c ∈ printPos p x, c ∈ numberChars) ∧
    ((roundDigits p x).2.natAbs < 100 → (printPos p x).length ≤ p + 5) := by
  obtain ⟨h1, h2, -⟩ := roundDigits_spec hp hx
  set D := (roundDigits p x).1 with hD
  set X := (roundDigits p x).2 with hX
  have hlen := length_digits h1 h2 hp
  have hlt := digits_lt D
  have hpr : printPos p x = if -4 ≤ X ∧ X < p then
      if 0 ≤ X then point ((digits D).take (X.toNat + 1)) (strip ((digits D).drop (X.toNat + 1)))
      else point [0] (strip (List.replicate (-X - 1).toNat 0 ++ digits D))
    else point ((digits D).take 1) (strip ((digits D).drop 1)) ++ exponent X := rfl
  set ds := digits D with hds
  have htake : ∀ k, ∀ d ∈ ds.take k, d < 10 := fun k d hd => hlt d (List.mem_of_mem_take hd)
  have hdrop : ∀ k, ∀ d ∈ strip (ds.drop k), d < 10 := fun k d hd =>
    hlt d (List.mem_of_mem_drop (strip_subset _ d hd))
  have htd : ∀ k, (ds.take k).length + (strip (ds.drop k)).length ≤ p := by
    intro k
    have := strip_length (ds.drop k)
    rw [List.length_drop] at this
    rw [List.length_take]
    omega
  rw [hpr]
  split_ifs with hf hX0
  · refine ⟨point_number (htake _) (hdrop _), fun _ => (point_length _ _).trans ?_⟩
    have := htd (X.toNat + 1)
    omega
  · have hz : ∀ d ∈ strip (List.replicate (-X - 1).toNat 0 ++ ds), d < 10 := by
      intro d hd
      rcases List.mem_append.1 (strip_subset _ d hd) with h | h
      · rw [(List.mem_replicate.1 h).2]; norm_num
      · exact hlt d h
    refine ⟨point_number (by simp) hz, fun _ => (point_length _ _).trans ?_⟩
    have := strip_length (List.replicate (-X - 1).toNat 0 ++ ds)
    rw [List.length_append, List.length_replicate, hlen] at this
    simp only [List.length_cons, List.length_nil]
    omega
  · refine ⟨fun c hc => ?_, fun hb => ?_⟩
    · rcases List.mem_append.1 hc with h | h
      · exact point_number (htake _) (hdrop _) c h
      · exact exponent_number _ c h
    · have h3 := point_length (ds.take 1) (strip (ds.drop 1))
      have h4 := htd 1
      have h5 : (exponent X).length ≤ 4 := by
        unfold exponent
        split_ifs with _ h10 h10
        · simp
        · have := length_digits (n := X.natAbs) (p := 2) (by omega) (by omega) (by norm_num)
          simp [this]
        · simp
        · have := length_digits (n := X.natAbs) (p := 2) (by omega) (by omega) (by norm_num)
          simp [this]
      rw [List.length_append]
      omega

theorem print_number (f : F32) : ∀ c ∈ print 6 f, c ∈ numberChars := by
  cases f with
  | fin x =>
    intro c hc
    rw [print, printReal] at hc
    split_ifs at hc with h0 h1
    · rw [List.mem_singleton.1 hc]; decide
    · rcases List.mem_cons.1 hc with rfl | hc
      · decide
      · exact (printPos_text (by norm_num) (by linarith)).1 c hc
    · exact (printPos_text (by norm_num) (lt_of_le_of_ne (not_lt.1 h1) (Ne.symm h0))).1 c hc
  | nan => decide
  | pinf => decide
  | ninf => decide

theorem exponent_bound {x : ℝ} (hx : Rep x) (hpos : 0 < x) : (roundDigits 6 x).2.natAbs < 100 := by
  have h1 : x < (10 : ℝ) ^ (40 : ℤ) := by
    have := (abs_lt.1 hx.lt).2
    have h2 : (2 : ℝ) ^ 128 ≤ (10 : ℝ) ^ (40 : ℤ) := by norm_num
    linarith
  have h2 : (10 : ℝ) ^ (-50 : ℤ) ≤ x := by
    obtain ⟨m, e, hm, he, -, rfl⟩ := hx
    have hm0 : 0 < m := by
      have := (pos_iff_pos_of_mul_pos hpos).2 (two_zpow_pos e)
      exact_mod_cast this
    have hm1 : (1 : ℝ) ≤ m := by exact_mod_cast hm0
    have h3 : (2 : ℝ) ^ (-149 : ℤ) ≤ 2 ^ e := zpow_le_zpow_right₀ (by norm_num) he
    have h4 : (10 : ℝ) ^ (-50 : ℤ) ≤ 2 ^ (-149 : ℤ) := by
      rw [zpow_neg, zpow_neg]
      apply inv_anti₀ (by positivity)
      norm_num
    have := two_zpow_pos e
    nlinarith
  have h3 : Int.log 10 x < 40 := (Int.lt_zpow_iff_log_lt (b := 10) (by norm_num) hpos).1 (by exact_mod_cast h1)
  have h4 : -50 ≤ Int.log 10 x := (Int.zpow_le_iff_le_log (b := 10) (by norm_num) hpos).1 (by exact_mod_cast h2)
  unfold roundDigits
  dsimp only
  split_ifs <;> dsimp only <;> omega

/-- The text of a `float` has between 1 and 12 characters, all of them digits or among `.e+-naif`. -/
theorem C96_number (f : F32) (hf : IsFloat f) :
    print 6 f ≠ [] ∧ (print 6 f).length ≤ 12 ∧ ∀ c ∈ print 6 f, c ∈ numberChars := by
  refine ⟨?_, ?_, print_number f⟩
  · cases f with
    | fin x => exact (printReal_noBlank (by norm_num) x).2
    | nan => decide
    | pinf => decide
    | ninf => decide
  · cases f with
    | fin x =>
      have hx := hf x rfl
      rw [print, printReal]
      split_ifs with h0 h1
      · simp
      · have := (printPos_text (p := 6) (by norm_num) (by linarith : 0 < -x)).2 (exponent_bound hx.neg (by linarith))
        rw [List.length_cons]
        omega
      · have hpos : 0 < x := lt_of_le_of_ne (not_lt.1 h1) (Ne.symm h0)
        have := (printPos_text (p := 6) (by norm_num) hpos).2 (exponent_bound hx hpos)
        omega
    | nan => decide
    | pinf => decide
    | ninf => decide

example : IsFloat (fin 1) := fun x h => by
  rw [← fin.inj h]
  exact Rep.one

/-- Two values with the same text are the same up to 5 millionths. -/
theorem C96_value (a b : F32) (h : print 6 a = print 6 b) : SameNumber a b := by
  have hfin : ∀ (x : ℝ) (l : List Char), (l = ['n', 'a', 'n'] ∨ l = ['i', 'n', 'f'] ∨ l = ['-', 'i', 'n', 'f']) →
      printReal 6 x ≠ l := by
    intro x l hl he
    obtain ⟨v, hv, -⟩ := readReal_printReal (p := 6) (by norm_num) x
    rw [he] at hv
    rcases hl with rfl | rfl | rfl <;>
    simp [readReal, readSign, readUnsigned, readFraction] at hv
  cases a with
  | fin x =>
    cases b with
    | fin y =>
      obtain ⟨v, hv, hx⟩ := readReal_printReal (p := 6) (by norm_num) x
      obtain ⟨w, hw, hy⟩ := readReal_printReal (p := 6) (by norm_num) y
      rw [show printReal 6 x = printReal 6 y from h, hw] at hv
      rw [Option.some.inj hv] at hy
      refine Or.inr ⟨x, y, rfl, rfl, ?_⟩
      have e : (10 : ℝ) ^ (-(((6 : ℕ) : ℤ) - 1)) = 1 / 100000 := by norm_num
      rw [e] at hx hy
      rw [abs_sub_comm] at hx
      have := abs_add_le (x - v) (v - y)
      rw [sub_add_sub_cancel] at this
      linarith
    | nan => exact absurd h (hfin x _ (Or.inl rfl))
    | pinf => exact absurd h (hfin x _ (Or.inr (Or.inl rfl)))
    | ninf => exact absurd h (hfin x _ (Or.inr (Or.inr rfl)))
  | nan =>
    cases b with
    | fin y => exact absurd h.symm (hfin y _ (Or.inl rfl))
    | nan => exact Or.inl rfl
    | _ => exact absurd h (by decide)
  | pinf =>
    cases b with
    | fin y => exact absurd h.symm (hfin y _ (Or.inr (Or.inl rfl)))
    | pinf => exact Or.inl rfl
    | _ => exact absurd h (by decide)
  | ninf =>
    cases b with
    | fin y => exact absurd h.symm (hfin y _ (Or.inr (Or.inr rfl)))
    | ninf => exact Or.inl rfl
    | _ => exact absurd h (by decide)

theorem printInt_text (n : ℤ) : printInt n ≠ [] ∧ (IsInt n → (printInt n).length ≤ 11) ∧ ∀ c ∈ printInt n, c ∈ numberChars := by
  have hd : n ≠ 0 → digits n.natAbs ≠ [] := by
    intro h0 h
    have := big_digits n.natAbs
    rw [h] at this
    simp [big] at this
    omega
  have hl : IsInt n → (digits n.natAbs).length ≤ 10 := by
    intro hi
    unfold digits
    rw [List.length_reverse, Nat.digits_length_le_iff (by norm_num)]
    obtain ⟨h1, h2⟩ := hi
    norm_num at h1 h2
    omega
  unfold printInt
  split_ifs with h0 h1
  · exact ⟨by simp, by simp, by decide⟩
  · refine ⟨by simp, fun hi => ?_, ?_⟩
    · have := hl hi
      simp
      omega
    · intro c hc
      rcases List.mem_cons.1 hc with rfl | hc
      · decide
      · exact map_number (digits_lt _) c hc
  · refine ⟨by simpa using hd h0, fun hi => ?_, map_number (digits_lt _)⟩
    have := hl hi
    simp
    omega

/-! ### Texts of objects -/

/-- A bound of the length of the text. Helper of the proofs. Not in /repo: specification. -/
def bound : List Item → ℕ
  | [] => 0
  | .s t :: l => t.toList.length + bound l
  | .g _ :: l => 12 + bound l
  | .d _ :: l => 12 + bound l

/-- The members printed. Helper of the proofs. Not in /repo: specification. -/
def GoodItems : List Item → Prop
  | [] => True
  | .s _ :: l => GoodItems l
  | .g x :: l => IsFloat x ∧ GoodItems l
  | .d n :: l => IsInt n ∧ GoodItems l

theorem textOf_cons (a : Item) (l : List Item) : textOf (a :: l) = a.text ++ textOf l := rfl

theorem textOf_length (l : List Item) (h : GoodItems l) : (textOf l).length ≤ bound l := by
  induction l with
  | nil => exact le_rfl
  | cons a l ih =>
    rw [textOf_cons, List.length_append]
    cases a with
    | s t =>
      have := ih h
      show t.toList.length + _ ≤ t.toList.length + bound l
      omega
    | g x =>
      have h1 := (C96_number x h.1).2.1
      have h2 := ih h.2
      show (print 6 x).length + _ ≤ 12 + bound l
      omega
    | d n =>
      have h1 := (printInt_text n).2.1 h.1
      have h2 := ih h.2
      show (printInt n).length + _ ≤ 12 + bound l
      omega

theorem sprintf_ok (l : List Item) (h : GoodItems l) (hb : bound l ≤ 1000) : sprintf l = .ok (textOf l) := by
  have := textOf_length l h
  rw [sprintf, if_pos (by omega)]

/-- Texts of ten types: calls of their constructors in Python with named arguments, with six digits for each number. They
always fit in the array. -/
theorem C96_calls :
    (∀ p : Pose2D, (∀ f ∈ [p.x, p.y, p.theta], IsFloat f) → reprPose2D p =
      .ok (pyCall "Pose2D" [("x", print 6 p.x), ("y", print 6 p.y), ("theta", print 6 p.theta)])) ∧
    (∀ p : F32.Position2D, (∀ f ∈ [p.x, p.y], IsFloat f) → reprPosition2D p =
      .ok (pyCall "Position2D" [("x", print 6 p.x), ("y", print 6 p.y)])) ∧
    (∀ p : F32.Position3D, (∀ f ∈ [p.x, p.y, p.z], IsFloat f) → reprPosition3D p =
      .ok (pyCall "Position3D" [("x", print 6 p.x), ("y", print 6 p.y), ("z", print 6 p.z)])) ∧
    (∀ q : F32.Quat, (∀ f ∈ [q.w, q.x, q.y, q.z], IsFloat f) → reprQuaternion q =
      .ok (pyCall "Quaternion" [("w", print 6 q.w), ("x", print 6 q.x), ("y", print 6 q.y), ("z", print 6 q.z)])) ∧
    (∀ p : Position6D, (∀ f ∈ [p.x, p.y, p.z, p.wx, p.wy, p.wz], IsFloat f) → reprPosition6D p =
      .ok (pyCall "Position6D" [("x", print 6 p.x), ("y", print 6 p.y), ("z", print 6 p.z), ("wx", print 6 p.wx),
        ("wy", print 6 p.wy), ("wz", print 6 p.wz)])) ∧
    (∀ q dq : F32, IsFloat q → IsFloat dq → reprPositionAndVelocity q dq =
      .ok (pyCall "PositionAndVelocity" [("q", print 6 q), ("dq", print 6 dq)])) ∧
    (∀ r : F32.Rotation3D, (∀ f ∈ [r.wx, r.wy, r.wz], IsFloat f) → reprRotation3D r =
      .ok (pyCall "Rotation3D" [("wx", print 6 r.wx), ("wy", print 6 r.wy), ("wz", print 6 r.wz)])) ∧
    (∀ v : Velocity3D, (∀ f ∈ [v.xd, v.yd, v.zd], IsFloat f) → reprVelocity3D v =
      .ok (pyCall "Velocity3D" [("xd", print 6 v.xd), ("yd", print 6 v.yd), ("zd", print 6 v.zd)])) ∧
    (∀ (n : ℤ) (m : F32.MapParams), IsInt n → (∀ f ∈ [m.metersPerPixel, m.originOffset.x, m.originOffset.y], IsFloat f) →
      reprOccupancyMapParams n m = .ok (pyCall "OccupancyMapParams" [("size", printInt n),
        ("metersPerPixel", print 6 m.metersPerPixel),
        ("originOffset", pyCall "Position2D" [("x", print 6 m.originOffset.x), ("y", print 6 m.originOffset.y)])])) ∧
    (∀ p : Point2Di, IsInt p.x → IsInt p.y → reprPoint2Di p =
      .ok (pyCall "Point2Di" [("x", printInt p.x), ("y", printInt p.y)])) := by
  refine ⟨fun p h => ?_, fun p h => ?_, fun p h => ?_, fun p h => ?_, fun p h => ?_, fun q dq h1 h2 => ?_, fun p h => ?_,
    fun p h => ?_, fun n p h1 h2 => ?_, fun p h1 h2 => ?_⟩
  · rw [reprPose2D, sprintf_ok _ (by simpa [GoodItems] using h) (by simp [bound])]
    simp [textOf, Item.text, pyCall, List.intercalate]
  · rw [reprPosition2D, sprintf_ok _ (by simpa [GoodItems] using h) (by simp [bound])]
    simp [textOf, Item.text, pyCall, List.intercalate]
  · rw [reprPosition3D, sprintf_ok _ (by simpa [GoodItems] using h) (by simp [bound])]
    simp [textOf, Item.text, pyCall, List.intercalate]
  · rw [reprQuaternion, sprintf_ok _ (by simpa [GoodItems] using h) (by simp [bound])]
    simp [textOf, Item.text, pyCall, List.intercalate]
  · rw [reprPosition6D, sprintf_ok _ (by simpa [GoodItems] using h) (by simp [bound])]
    simp [textOf, Item.text, pyCall, List.intercalate]
  · rw [reprPositionAndVelocity, sprintf_ok _ (by simp [GoodItems, h1, h2]) (by simp [bound])]
    simp [textOf, Item.text, pyCall, List.intercalate]
  · rw [reprRotation3D, sprintf_ok _ (by simpa [GoodItems] using h) (by simp [bound])]
    simp [textOf, Item.text, pyCall, List.intercalate]
  · rw [reprVelocity3D, sprintf_ok _ (by simpa [GoodItems] using h) (by simp [bound])]
    simp [textOf, Item.text, pyCall, List.intercalate]
  · rw [reprOccupancyMapParams, sprintf_ok _ (by simpa [GoodItems, h1] using h2) (by simp [bound])]
    simp [textOf, Item.text, pyCall, List.intercalate]
  · rw [reprPoint2Di, sprintf_ok _ (by simp [GoodItems, h1, h2]) (by simp [bound])]
    simp [textOf, Item.text, pyCall, List.intercalate]

theorem print_one : print 6 (fin 1) = ['1'] :=
  print_near_one 6 1 (by norm_num) (by norm_num [digits]; rfl) (by norm_num) (by norm_num) (by norm_num)

theorem print_zero : print 6 (fin 0) = ['0'] := by simp [print, printReal]

theorem isFloat_one : IsFloat (fin 1) := fun x h => by
  rw [← fin.inj h]
  exact Rep.one

theorem isFloat_zero : IsFloat (fin 0) := fun x h => by
  rw [← fin.inj h]
  exact Rep.zero

/-- The point (1, 0). -/
example : reprPosition2D ⟨fin 1, fin 0⟩ = .ok "Position2D(x=1, y=0)".toList := by
  rw [C96_calls.2.1 _ (by simp [isFloat_one, isFloat_zero]), print_one, print_zero]
  simp [pyCall, List.intercalate]

/-- Texts of matrices: rows of numbers. Not in /repo: specification. -/
noncomputable def rowsText (before between after : String) (rows : List (List F32)) : List Char :=
  before.toList ++ (between.toList).intercalate (rows.map fun r => (", ".toList).intercalate (r.map (print 6))) ++ after.toList

/-- The texts of matrices and of the types that hold them always fit in the array; the numbers are written row by row, with
commas in each row. -/
theorem C96_matrices :
    (∀ r : F32.Rotation, (∀ f ∈ [r.r11, r.r12, r.r13, r.r21, r.r22, r.r23, r.r31, r.r32, r.r33], IsFloat f) →
      strRotation r = .ok (rowsText "[[" "]\n [" "]]"
        [[r.r11, r.r12, r.r13], [r.r21, r.r22, r.r23], [r.r31, r.r32, r.r33]]) ∧
      reprRotation r = .ok (rowsText "Rotation([" "\n          " "])"
        [[r.r11, r.r12, r.r13], [r.r21, r.r22, r.r23], [r.r31, r.r32, r.r33]])) ∧
    (∀ t : F32.Transform, (∀ f ∈ [t.r.r11, t.r.r12, t.r.r13, t.r14, t.r.r21, t.r.r22, t.r.r23, t.r24, t.r.r31, t.r.r32, t.r.r33,
        t.r34], IsFloat f) →
      strTransform t = .ok (rowsText "[[" "]\n [" "]]" [[t.r.r11, t.r.r12, t.r.r13, t.r14],
        [t.r.r21, t.r.r22, t.r.r23, t.r24], [t.r.r31, t.r.r32, t.r.r33, t.r34]]) ∧
      reprTransform t = .ok (rowsText "Transform([" "\n           " "])" [[t.r.r11, t.r.r12, t.r.r13, t.r14],
        [t.r.r21, t.r.r22, t.r.r23, t.r24], [t.r.r31, t.r.r32, t.r.r33, t.r34]])) ∧
    (∀ (t : F32.Transform) (v : Velocity6D), (∀ f ∈ [t.r.r11, t.r.r12, t.r.r13, t.r14, t.r.r21, t.r.r22, t.r.r23, t.r24,
        t.r.r31, t.r.r32, t.r.r33, t.r34, v.xd, v.yd, v.zd, v.wxd, v.wyd, v.wzd], IsFloat f) →
      reprTransformAndVelocity6D t v = .ok (
        rowsText "TransformAndVelocity6D(T=Transform([" "\n                                    " "]),\n"
          [[t.r.r11, t.r.r12, t.r.r13, t.r14], [t.r.r21, t.r.r22, t.r.r23, t.r24], [t.r.r31, t.r.r32, t.r.r33, t.r34]] ++
        List.replicate 23 ' ' ++ "V=".toList ++
        pyCall "Velocity6D" [("xd", print 6 v.xd), ("yd", print 6 v.yd), ("zd", print 6 v.zd), ("wxd", print 6 v.wxd),
          ("wyd", print 6 v.wyd), ("wzd", print 6 v.wzd)] ++ ")".toList)) := by
  refine ⟨fun r h => ⟨?_, ?_⟩, fun t h => ⟨?_, ?_⟩, fun t v h => ?_⟩
  · rw [strRotation, sprintf_ok _ (by simpa [GoodItems] using h) (by simp [bound])]
    simp [textOf, Item.text, rowsText, List.intercalate]
  · rw [reprRotation, sprintf_ok _ (by simpa [GoodItems] using h) (by simp [bound])]
    simp [textOf, Item.text, rowsText, List.intercalate]
  · rw [strTransform, sprintf_ok _ (by simpa [GoodItems] using h) (by simp [bound])]
    simp [textOf, Item.text, rowsText, List.intercalate]
  · rw [reprTransform, sprintf_ok _ (by simpa [GoodItems] using h) (by simp [bound])]
    simp [textOf, Item.text, rowsText, List.intercalate]
  · rw [reprTransformAndVelocity6D, sprintf_ok _ (by simpa [GoodItems] using h) (by simp [bound])]
    have h1 : "\n                                    ".toList = '\n' :: List.replicate 36 ' ' := by decide
    have h2 : "]),\n                       V=Velocity6D(xd=".toList = "]),\n".toList ++ List.replicate 23 ' ' ++
      "V=Velocity6D(xd=".toList := by decide
    simp only [textOf, Item.text, rowsText, pyCall, List.intercalate, List.flatMap_cons, List.flatMap_nil, List.map_cons,
      List.map_nil, List.intersperse, List.flatten_cons, List.flatten_nil, h1, h2]
    generalize List.replicate 36 ' ' = s36
    generalize List.replicate 23 ' ' = s23
    simp

/-- The identity. -/
example : reprRotation ⟨fin 1, fin 0, fin 0, fin 0, fin 1, fin 0, fin 0, fin 0, fin 1⟩ =
    .ok "Rotation([1, 0, 0\n          0, 1, 0\n          0, 0, 1])".toList := by
  rw [(C96_matrices.1 _ (by simp [isFloat_one, isFloat_zero])).2]
  simp [rowsText, List.intercalate, print_one, print_zero]

/-! ### Texts that are not Python -/

/-- How often a character occurs in the texts of a format. Helper of the proofs. Not in /repo: specification. -/
def litCount (c : Char) : List Item → ℕ
  | [] => 0
  | .s t :: l => t.toList.count c + litCount c l
  | .g _ :: l => litCount c l
  | .d _ :: l => litCount c l

theorem count_textOf (c : Char) (hc : c ∉ numberChars) (l : List Item) : (textOf l).count c = litCount c l := by
  induction l with
  | nil => rfl
  | cons a l ih =>
    rw [textOf_cons, List.count_append, ih]
    cases a with
    | s t => rfl
    | g x =>
      show (print 6 x).count c + _ = _
      rw [List.count_eq_zero_of_not_mem (fun h => hc (print_number x c h)), zero_add]
      rfl
    | d n =>
      show (printInt n).count c + _ = _
      rw [List.count_eq_zero_of_not_mem (fun h => hc ((printInt_text n).2.2 c h)), zero_add]
      rfl

/-- The text of every 6D velocity is the call without its closing parenthesis. -/
theorem C96_velocity6D (v : Velocity6D) (h : ∀ f ∈ [v.xd, v.yd, v.zd, v.wxd, v.wyd, v.wzd], IsFloat f) :
    ∃ t, reprVelocity6D v = .ok t ∧ t ++ ")".toList = pyCall "Velocity6D" [("xd", print 6 v.xd), ("yd", print 6 v.yd),
      ("zd", print 6 v.zd), ("wxd", print 6 v.wxd), ("wyd", print 6 v.wyd), ("wzd", print 6 v.wzd)] ∧
      t.count '(' = 1 ∧ t.count ')' = 0 := by
  refine ⟨_, by rw [reprVelocity6D, sprintf_ok _ (by simpa [GoodItems] using h) (by simp [bound])], ?_, ?_, ?_⟩
  · simp [textOf, Item.text, pyCall, List.intercalate]
  · rw [count_textOf _ (by decide)]
    simp [litCount]
  · rw [count_textOf _ (by decide)]
    simp [litCount]

/-- The text of every displacement has no comma between its two arguments, and a newline at its end. -/
theorem C96_displacement (p : F32.Position3D) (q : F32.Quat) (h : ∀ f ∈ [p.x, p.y, p.z, q.w, q.x, q.y, q.z], IsFloat f) :
    ∃ a b, reprPosition3D p = .ok a ∧ reprQuaternion q = .ok b ∧
      reprDisplacement p q = .ok ("Displacement(P=".toList ++ a ++ "\n             Q=".toList ++ b ++ ")\n".toList) := by
  have h' : (IsFloat p.x ∧ IsFloat p.y ∧ IsFloat p.z) ∧ IsFloat q.w ∧ IsFloat q.x ∧ IsFloat q.y ∧ IsFloat q.z := by
    simpa [and_assoc] using h
  refine ⟨_, _, C96_calls.2.2.1 p (by simpa using h'.1), C96_calls.2.2.2.1 q (by simpa using h'.2), ?_⟩
  rw [reprDisplacement, sprintf_ok _ (by simpa [GoodItems] using h) (by simp [bound])]
  simp [textOf, Item.text, pyCall, List.intercalate]

/-- The texts of rotations and transforms have a comma less than a list in Python at the end of each row but the last: 6
for 9 numbers and 9 for 12. -/
theorem C96_commas (r : F32.Rotation) (t : F32.Transform) (u : List Char) :
    (reprRotation r = .ok u → u.count ',' = 6) ∧ (strRotation r = .ok u → u.count ',' = 6) ∧
    (reprTransform t = .ok u → u.count ',' = 9) ∧ (strTransform t = .ok u → u.count ',' = 9) := by
  have key : ∀ (l : List Item) (n : ℕ), litCount ',' l = n → sprintf l = .ok u → u.count ',' = n := by
    intro l n hn h
    unfold sprintf at h
    split_ifs at h
    rw [← Res.ok.inj h, count_textOf _ (by decide), hn]
  refine ⟨key _ _ ?_, key _ _ ?_, key _ _ ?_, key _ _ ?_⟩ <;> simp [litCount]

/-! ### Texts and values -/

/-- Same format: the texts between the numbers agree. Helper of the proofs. Not in /repo: specification. -/
def SameItem : Item → Item → Prop
  | .s t, .s t' => t = t'
  | .g _, .g _ => True
  | .d _, .d _ => True
  | _, _ => False

/-- After each number the format has a character that is in no number, or ends. Helper of the proofs. Not in /repo:
specification. -/
def Separated : List Item → Prop
  | [] => True
  | .s _ :: l => Separated l
  | _ :: [] => True
  | _ :: .s t :: l => t.toList.head?.any (fun c => c ∉ numberChars) = true ∧ Separated l
  | _ :: _ => False

theorem head_sep {o : Option Char} (h : o.any (fun c => c ∉ numberChars) = true) : ∃ c ∈ o, c ∉ numberChars := by
  cases o with
  | none => exact absurd h (by simp)
  | some c => exact ⟨c, rfl, by simpa using h⟩

theorem sep_nil : Separated [] ↔ True := Iff.rfl

theorem sep_s (t : String) (l : List Item) : Separated (.s t :: l) ↔ Separated l := Iff.rfl

theorem sep_g (x : F32) : Separated [.g x] ↔ True := Iff.rfl

theorem sep_d (n : ℤ) : Separated [.d n] ↔ True := Iff.rfl

theorem sep_gs (x : F32) (t : String) (l : List Item) :
    Separated (.g x :: .s t :: l) ↔ t.toList.head?.any (fun c => c ∉ numberChars) = true ∧ Separated l := Iff.rfl

theorem sep_ds (n : ℤ) (t : String) (l : List Item) :
    Separated (.d n :: .s t :: l) ↔ t.toList.head?.any (fun c => c ∉ numberChars) = true ∧ Separated l := Iff.rfl

theorem number_cut : ∀ a b r r' : List Char, (∀ c ∈ a, c ∈ numberChars) → (∀ c ∈ b, c ∈ numberChars) →
    (∀ c ∈ r.head?, c ∉ numberChars) → (∀ c ∈ r'.head?, c ∉ numberChars) → a ++ r = b ++ r' → a = b ∧ r = r' := by
  intro a
  induction a with
  | nil =>
    intro b r r' _ hb hr _ he
    cases b with
    | nil => exact ⟨rfl, he⟩
    | cons c b =>
      rw [List.nil_append, List.cons_append] at he
      exact absurd (hb c (by simp)) (hr c (by rw [he]; rfl))
  | cons c a ih =>
    intro b r r' ha hb hr hr' he
    cases b with
    | nil =>
      rw [List.nil_append, List.cons_append] at he
      exact absurd (ha c (by simp)) (hr' c (by rw [← he]; rfl))
    | cons d b =>
      simp only [List.cons_append, List.cons.injEq] at he
      obtain ⟨h1, h2⟩ := ih b r r' (fun c hc => ha c (by simp [hc])) (fun c hc => hb c (by simp [hc])) hr hr' he.2
      exact ⟨by rw [he.1, h1], h2⟩

theorem textOf_inj (l l' : List Item) (h : List.Forall₂ SameItem l l') (hs : Separated l) (ht : textOf l = textOf l') :
    List.Forall₂ (fun a b => a.text = b.text) l l' := by
  have num : ∀ a : Item, (∀ t, a ≠ .s t) → ∀ c ∈ a.text, c ∈ numberChars := by
    intro a ha
    cases a with
    | s t => exact absurd rfl (ha t)
    | g x => exact print_number x
    | d n => exact (printInt_text n).2.2
  have step : ∀ (a b : Item) (l l' : List Item), (∀ t, a ≠ .s t) → (∀ t, b ≠ .s t) → List.Forall₂ SameItem l l' →
      Separated (a :: l) → textOf (a :: l) = textOf (b :: l') → a.text = b.text ∧ Separated l ∧ textOf l = textOf l' := by
    intro a b l l' ha hb hf hsep he
    rw [textOf_cons, textOf_cons] at he
    have hsl : Separated l ∧ ∀ c ∈ (textOf l).head?, c ∉ numberChars := by
      cases l with
      | nil => exact ⟨trivial, by simp [textOf]⟩
      | cons x l =>
        cases x with
        | s t =>
          have hh : t.toList.head?.any (fun c => c ∉ numberChars) = true ∧ Separated l := by
            cases a with
            | s t => exact absurd rfl (ha t)
            | g x => exact hsep
            | d n => exact hsep
          obtain ⟨hh, hl⟩ := hh
          obtain ⟨c, hc, hn⟩ := head_sep hh
          refine ⟨hl, ?_⟩
          rw [textOf_cons]
          show ∀ c ∈ (t.toList ++ textOf l).head?, c ∉ numberChars
          intro c' hc'
          rw [List.head?_append, Option.mem_def.1 hc] at hc'
          rw [← Option.some.inj hc']
          exact hn
        | g y =>
          cases a with
          | s t => exact absurd rfl (ha t)
          | g x => exact absurd hsep id
          | d n => exact absurd hsep id
        | d y =>
          cases a with
          | s t => exact absurd rfl (ha t)
          | g x => exact absurd hsep id
          | d n => exact absurd hsep id
    have hsl' : ∀ c ∈ (textOf l').head?, c ∉ numberChars := by
      cases hf with
      | nil => simp [textOf]
      | @cons x y l l' hxy hl =>
        cases x with
        | s t =>
          cases y with
          | s t' =>
            have hh : t.toList.head?.any (fun c => c ∉ numberChars) = true ∧ Separated l := by
              cases a with
              | s t => exact absurd rfl (ha t)
              | g x => exact hsep
              | d n => exact hsep
            obtain ⟨c, hc, hn⟩ := head_sep hh.1
            have e : t = t' := hxy
            rw [textOf_cons]
            show ∀ c ∈ (t'.toList ++ textOf l').head?, c ∉ numberChars
            intro c' hc'
            rw [List.head?_append, ← e, Option.mem_def.1 hc] at hc'
            rw [← Option.some.inj hc']
            exact hn
          | g x => exact absurd hxy id
          | d n => exact absurd hxy id
        | g z =>
          cases a with
          | s t => exact absurd rfl (ha t)
          | g x => exact absurd hsep id
          | d n => exact absurd hsep id
        | d z =>
          cases a with
          | s t => exact absurd rfl (ha t)
          | g x => exact absurd hsep id
          | d n => exact absurd hsep id
    obtain ⟨h1, h2⟩ := number_cut _ _ _ _ (num a ha) (num b hb) hsl.2 hsl' he
    exact ⟨h1, hsl.1, h2⟩
  induction h with
  | nil => exact .nil
  | @cons a b l l' hab hl ih =>
    cases a with
    | s t =>
      cases b with
      | s t' =>
        have : t = t' := hab
        subst this
        rw [textOf_cons, textOf_cons] at ht
        exact .cons rfl (ih hs (List.append_cancel_left ht))
      | g x => exact absurd hab id
      | d n => exact absurd hab id
    | g x =>
      cases b with
      | g y =>
        obtain ⟨h1, h2, h3⟩ := step _ _ l l' (by simp) (by simp) hl hs ht
        exact .cons h1 (ih h2 h3)
      | s t => exact absurd hab id
      | d n => exact absurd hab id
    | d n =>
      cases b with
      | d m =>
        obtain ⟨h1, h2, h3⟩ := step _ _ l l' (by simp) (by simp) hl hs ht
        exact .cons h1 (ih h2 h3)
      | s t => exact absurd hab id
      | g x => exact absurd hab id

theorem printInt_inj {n m : ℤ} (h : printInt n = printInt m) : n = m := by
  have hmap : ∀ a b : ℕ, (digits a).map Nat.digitChar = (digits b).map Nat.digitChar → a = b := by
    intro a b hab
    rw [← big_digits a, ← big_digits b, ← number_map (digits_lt a), ← number_map (digits_lt b), hab]
  have hz : ['0'] = (digits 0).map Nat.digitChar ++ ['0'] := by simp [digits]
  have hm : ∀ (a : ℕ) (l : List Char), (digits a).map Nat.digitChar ≠ '-' :: l := by
    intro a l hc
    have : '-' ∈ (digits a).map Nat.digitChar := by simp [hc]
    obtain ⟨d, hd, he⟩ := List.mem_map.1 this
    have := digits_lt a d hd
    interval_cases d <;> exact absurd he (by decide)
  have h0 : ∀ a : ℕ, (digits a).map Nat.digitChar = ['0'] → a = 0 := by
    intro a ha
    rw [← big_digits a, ← number_map (digits_lt a), ha]
    rfl
  unfold printInt at h
  split_ifs at h with h1 h2 h3 h4 h5 h6 h7
  · omega
  · exact absurd h (by simp)
  · have := h0 _ h.symm
    omega
  · exact absurd h (by simp)
  · have := hmap _ _ (List.cons.inj h).2
    omega
  · exact absurd h.symm (hm _ _)
  · have := h0 _ h
    omega
  · exact absurd h (hm _ _)
  · have := hmap _ _ h
    omega

theorem sprintf_same {l l' : List Item} {t : List Char} (h : sprintf l = .ok t) (h' : sprintf l' = .ok t)
    (hf : List.Forall₂ SameItem l l') (hs : Separated l) : List.Forall₂ (fun a b => a.text = b.text) l l' := by
  refine textOf_inj l l' hf hs ?_
  unfold sprintf at h h'
  split_ifs at h h'
  rw [Res.ok.inj h, Res.ok.inj h']
/-- Objects with the same text have the same members, up to five millionths: no member is left out of the text. -/
theorem C96_same :
    (∀ (a b : Pose2D) (t : List Char), reprPose2D a = .ok t → reprPose2D b = .ok t →
     SameNumber a.x b.x ∧
      SameNumber a.y b.y ∧ SameNumber a.theta b.theta) ∧
    (∀ (a b : F32.Position2D) (t : List Char), reprPosition2D a = .ok t → reprPosition2D b = .ok t →
      SameNumber a.x b.x ∧ SameNumber a.y b.y) ∧
    (∀ (a b : F32.Position3D) (t : List Char), reprPosition3D a = .ok t → reprPosition3D b = .ok t →
      SameNumber a.x b.x ∧ SameNumber a.y b.y ∧ SameNumber a.z b.z) ∧
    (∀ (a b : F32.Quat) (t : List Char), reprQuaternion a = .ok t → reprQuaternion b = .ok t →
     SameNumber a.w b.w ∧
      SameNumber a.x b.x ∧ SameNumber a.y b.y ∧ SameNumber a.z b.z) ∧
    (∀ (a b : Position6D) (t : List Char), reprPosition6D a = .ok t → reprPosition6D b = .ok t →
      SameNumber a.x b.x ∧ SameNumber a.y b.y ∧ SameNumber a.z b.z ∧ SameNumber a.wx b.wx ∧ SameNumber a.wy b.wy ∧
      SameNumber a.wz b.wz) ∧
    (∀ (a b : F32.Rotation3D) (t : List Char), reprRotation3D a = .ok t → reprRotation3D b = .ok t →
      SameNumber a.wx b.wx ∧ SameNumber a.wy b.wy ∧ SameNumber a.wz b.wz) ∧
    (∀ (a b : Velocity3D) (t : List Char), reprVelocity3D a = .ok t → reprVelocity3D b = .ok t →
      SameNumber a.xd b.xd ∧ SameNumber a.yd b.yd ∧ SameNumber a.zd b.zd) ∧
    (∀ (a b : Velocity6D) (t : List Char), reprVelocity6D a = .ok t → reprVelocity6D b = .ok t →
      SameNumber a.xd b.xd ∧ SameNumber a.yd b.yd ∧ SameNumber a.zd b.zd ∧ SameNumber a.wxd b.wxd ∧
      SameNumber a.wyd b.wyd ∧ SameNumber a.wzd b.wzd) ∧
    (∀ (a b : F32.Rotation) (t : List Char), strRotation a = .ok t → strRotation b = .ok t →
      SameNumber a.r11 b.r11 ∧ SameNumber a.r12 b.r12 ∧ SameNumber a.r13 b.r13 ∧ SameNumber a.r21 b.r21 ∧
      SameNumber a.r22 b.r22 ∧ SameNumber a.r23 b.r23 ∧ SameNumber a.r31 b.r31 ∧ SameNumber a.r32 b.r32 ∧
      SameNumber a.r33 b.r33) ∧
    (∀ (a b : F32.Rotation) (t : List Char), reprRotation a = .ok t → reprRotation b = .ok t →
      SameNumber a.r11 b.r11 ∧ SameNumber a.r12 b.r12 ∧ SameNumber a.r13 b.r13 ∧ SameNumber a.r21 b.r21 ∧
      SameNumber a.r22 b.r22 ∧ SameNumber a.r23 b.r23 ∧ SameNumber a.r31 b.r31 ∧ SameNumber a.r32 b.r32 ∧
      SameNumber a.r33 b.r33) ∧
    (∀ (a b : F32.Transform) (t : List Char), strTransform a = .ok t → strTransform b = .ok t →
      SameNumber a.r.r11 b.r.r11 ∧ SameNumber a.r.r12 b.r.r12 ∧ SameNumber a.r.r13 b.r.r13 ∧ SameNumber a.r14 b.r14 ∧
      SameNumber a.r.r21 b.r.r21 ∧ SameNumber a.r.r22 b.r.r22 ∧ SameNumber a.r.r23 b.r.r23 ∧ SameNumber a.r24 b.r24 ∧
      SameNumber a.r.r31 b.r.r31 ∧ SameNumber a.r.r32 b.r.r32 ∧ SameNumber a.r.r33 b.r.r33 ∧ SameNumber a.r34 b.r34) ∧
    (∀ (a b : F32.Transform) (t : List Char), reprTransform a = .ok t → reprTransform b = .ok t →
      SameNumber a.r.r11 b.r.r11 ∧ SameNumber a.r.r12 b.r.r12 ∧ SameNumber a.r.r13 b.r.r13 ∧ SameNumber a.r14 b.r14 ∧
      SameNumber a.r.r21 b.r.r21 ∧ SameNumber a.r.r22 b.r.r22 ∧ SameNumber a.r.r23 b.r.r23 ∧ SameNumber a.r24 b.r24 ∧
      SameNumber a.r.r31 b.r.r31 ∧ SameNumber a.r.r32 b.r.r32 ∧ SameNumber a.r.r33 b.r.r33 ∧ SameNumber a.r34 b.r34) ∧
    (∀ (q dq q' dq' : F32) (t : List Char), reprPositionAndVelocity q dq = .ok t → reprPositionAndVelocity q' dq' = .ok t →
      SameNumber q q' ∧ SameNumber dq dq') ∧
    (∀ (a b : F32.Transform) (v w : Velocity6D) (t : List Char), reprTransformAndVelocity6D a v = .ok t →
      reprTransformAndVelocity6D b w = .ok t →
      SameNumber a.r.r11 b.r.r11 ∧ SameNumber a.r.r12 b.r.r12 ∧ SameNumber a.r.r13 b.r.r13 ∧ SameNumber a.r14 b.r14 ∧
      SameNumber a.r.r21 b.r.r21 ∧ SameNumber a.r.r22 b.r.r22 ∧ SameNumber a.r.r23 b.r.r23 ∧ SameNumber a.r24 b.r24 ∧
      SameNumber a.r.r31 b.r.r31 ∧ SameNumber a.r.r32 b.r.r32 ∧ SameNumber a.r.r33 b.r.r33 ∧ SameNumber a.r34 b.r34 ∧
      SameNumber v.xd w.xd ∧ SameNumber v.yd w.yd ∧ SameNumber v.zd w.zd ∧ SameNumber v.wxd w.wxd ∧
      SameNumber v.wyd w.wyd ∧ SameNumber v.wzd w.wzd) ∧
    (∀ (p p' : F32.Position3D) (q q' : F32.Quat) (t : List Char), reprDisplacement p q = .ok t → reprDisplacement p' q' = .ok t →
      SameNumber p.x p'.x ∧ SameNumber p.y p'.y ∧ SameNumber p.z p'.z ∧ SameNumber q.w q'.w ∧ SameNumber q.x q'.x ∧
      SameNumber q.y q'.y ∧ SameNumber q.z q'.z) ∧
    (∀ (n m : ℤ) (a b : F32.MapParams) (t : List Char), reprOccupancyMapParams n a = .ok t → reprOccupancyMapParams m b = .ok t →
      n = m ∧ SameNumber a.metersPerPixel b.metersPerPixel ∧ SameNumber a.originOffset.x b.originOffset.x ∧
      SameNumber a.originOffset.y b.originOffset.y) ∧
    (∀ (a b : Point2Di) (t : List Char), reprPoint2Di a = .ok t → reprPoint2Di b = .ok t → a.x = b.x ∧ a.y = b.y) := by
  have key : ∀ {l l' : List Item} {t : List Char}, sprintf l = .ok t → sprintf l' = .ok t → List.Forall₂ SameItem l l' →
      Separated l → List.Forall₂ (fun a b => a.text = b.text) l l' := sprintf_same
  have v : ∀ {a b : F32}, print 6 a = print 6 b → SameNumber a b := fun h => C96_value _ _ h
  have pz : ∀ {a b : ℤ}, printInt a = printInt b → a = b := fun h => printInt_inj h
  refine ⟨?_, ?_, ?_, ?_, ?_, ?_, ?_, ?_, ?_, ?_, ?_, ?_, ?_, ?_, ?_, ?_, ?_⟩
  · intro a b t h h'
    unfold reprPose2D at h h'
    have := key h h' (by simp [SameItem]) (by simp only [sep_s, sep_g, sep_d, sep_gs, sep_ds, sep_nil, and_true]; decide)
    simp only [List.forall₂_cons, List.Forall₂.nil, Item.text] at this
    simp [v, this]
  · intro a b t h h'
    unfold reprPosition2D at h h'
    have := key h h' (by simp [SameItem]) (by simp only [sep_s, sep_g, sep_d, sep_gs, sep_ds, sep_nil, and_true]; decide)
    simp only [List.forall₂_cons, List.Forall₂.nil, Item.text] at this
    simp [v, this]
  · intro a b t h h'
    unfold reprPosition3D at h h'
    have := key h h' (by simp [SameItem]) (by simp only [sep_s, sep_g, sep_d, sep_gs, sep_ds, sep_nil, and_true]; decide)
    simp only [List.forall₂_cons, List.Forall₂.nil, Item.text] at this
    simp [v, this]
  · intro a b t h h'
    unfold reprQuaternion at h h'
    have := key h h' (by simp [SameItem]) (by simp only [sep_s, sep_g, sep_d, sep_gs, sep_ds, sep_nil, and_true]; decide)
    simp only [List.forall₂_cons, List.Forall₂.nil, Item.text] at this
    simp [v, this]
  · intro a b t h h'
    unfold reprPosition6D at h h'
    have := key h h' (by simp [SameItem]) (by simp only [sep_s, sep_g, sep_d, sep_gs, sep_ds, sep_nil, and_true]; decide)
    simp only [List.forall₂_cons, List.Forall₂.nil, Item.text] at this
    simp [v, this]
  · intro a b t h h'
    unfold reprRotation3D at h h'
    have := key h h' (by simp [SameItem]) (by simp only [sep_s, sep_g, sep_d, sep_gs, sep_ds, sep_nil, and_true]; decide)
    simp only [List.forall₂_cons, List.Forall₂.nil, Item.text] at this
    simp [v, this]
  · intro a b t h h'
    unfold reprVelocity3D at h h'
    have := key h h' (by simp [SameItem]) (by simp only [sep_s, sep_g, sep_d, sep_gs, sep_ds, sep_nil, and_true]; decide)
    simp only [List.forall₂_cons, List.Forall₂.nil, Item.text] at this
    simp [v, this]
  · intro a b t h h'
    unfold reprVelocity6D at h h'
    have := key h h' (by simp [SameItem]) (by simp only [sep_s, sep_g, sep_d, sep_gs, sep_ds, sep_nil, and_true]; decide)
    simp only [List.forall₂_cons, List.Forall₂.nil, Item.text] at this
    simp [v, this]
  · intro a b t h h'
    unfold strRotation at h h'
    have := key h h' (by simp [SameItem]) (by simp only [sep_s, sep_g, sep_d, sep_gs, sep_ds, sep_nil, and_true]; decide)
    simp only [List.forall₂_cons, List.Forall₂.nil, Item.text] at this
    simp [v, this]
  · intro a b t h h'
    unfold reprRotation at h h'
    have := key h h' (by simp [SameItem]) (by simp only [sep_s, sep_g, sep_d, sep_gs, sep_ds, sep_nil, and_true]; decide)
    simp only [List.forall₂_cons, List.Forall₂.nil, Item.text] at this
    simp [v, this]
  · intro a b t h h'
    unfold strTransform at h h'
    have := key h h' (by simp [SameItem]) (by simp only [sep_s, sep_g, sep_d, sep_gs, sep_ds, sep_nil, and_true]; decide)
    simp only [List.forall₂_cons, List.Forall₂.nil, Item.text] at this
    simp [v, this]
  · intro a b t h h'
    unfold reprTransform at h h'
    have := key h h' (by simp [SameItem]) (by simp only [sep_s, sep_g, sep_d, sep_gs, sep_ds, sep_nil, and_true]; decide)
    simp only [List.forall₂_cons, List.Forall₂.nil, Item.text] at this
    simp [v, this]
  · intro q dq q' dq' t h h'
    unfold reprPositionAndVelocity at h h'
    have := key h h' (by simp [SameItem]) (by simp only [sep_s, sep_g, sep_d, sep_gs, sep_ds, sep_nil, and_true]; decide)
    simp only [List.forall₂_cons, List.Forall₂.nil, Item.text] at this
    simp [v, this]
  · intro a b v' w t h h'
    unfold reprTransformAndVelocity6D at h h'
    have := key h h' (by simp [SameItem]) (by simp only [sep_s, sep_g, sep_d, sep_gs, sep_ds, sep_nil, and_true]; decide)
    simp only [List.forall₂_cons, List.Forall₂.nil, Item.text] at this
    simp [v, this]
  · intro p p' q q' t h h'
    unfold reprDisplacement at h h'
    have := key h h' (by simp [SameItem]) (by simp only [sep_s, sep_g, sep_d, sep_gs, sep_ds, sep_nil, and_true]; decide)
    simp only [List.forall₂_cons, List.Forall₂.nil, Item.text] at this
    simp [v, this]
  · intro n m a b t h h'
    unfold reprOccupancyMapParams at h h'
    have := key h h' (by simp [SameItem]) (by simp only [sep_s, sep_g, sep_d, sep_gs, sep_ds, sep_nil, and_true]; decide)
    simp only [List.forall₂_cons, List.Forall₂.nil, Item.text] at this
    exact ⟨pz this.2.1, by simp [v, this], by simp [v, this], by simp [v, this]⟩
  · intro a b t h h'
    unfold reprPoint2Di at h h'
    have := key h h' (by simp [SameItem]) (by simp only [sep_s, sep_g, sep_d, sep_gs, sep_ds, sep_nil, and_true]; decide)
    simp only [List.forall₂_cons, List.Forall₂.nil, Item.text] at this
    exact ⟨pz this.2.1, pz this.2.2.2.1⟩

/-- A velocity and another that differs only in its last member cannot have the same text. -/
example (t : List Char) : ¬ (reprVelocity6D ⟨fin 1, fin 1, fin 1, fin 1, fin 1, fin 0⟩ = .ok t ∧
    reprVelocity6D ⟨fin 1, fin 1, fin 1, fin 1, fin 1, fin 1⟩ = .ok t) := by
  rintro ⟨h, h'⟩
  obtain ⟨-, -, -, -, -, h5⟩ := C96_same.2.2.2.2.2.2.2.1 _ _ t h h'
  rcases h5 with h5 | ⟨x, y, hx, hy, h5⟩
  · have h6 := fin.inj h5
    norm_num at h6
  · rw [← fin.inj hx, ← fin.inj hy] at h5
    norm_num at h5

/-! ### Vectors -/

theorem vectorItems_ok {α : Type} (f : α → Res (List Char)) (g : α → List Char) (l : List α) (h : ∀ x ∈ l, f x = .ok (g x)) :
    vectorItems f l = .ok ((", ".toList).intercalate (l.map g)) := by
  induction l with
  | nil => rfl
  | cons x l ih =>
    cases l with
    | nil => simp [vectorItems, h x, List.intercalate]
    | cons y l =>
      rw [vectorItems, h x (by simp), ih (fun z hz => h z (by simp [hz]))]
      · simp [Res.bind, List.intercalate, List.intersperse]
      · simp

theorem reprVector_ok {α : Type} (name : String) (f : α → Res (List Char)) (g : α → List Char) (l : List α)
    (h : ∀ x ∈ l, f x = .ok (g x)) :
    reprVector name f l = .ok (name.toList ++ (", ".toList).intercalate (l.map g) ++ "])\n".toList) := by
  unfold reprVector
  have e : (if 0 < l.length then vectorItems f l else .ok []) = .ok ((", ".toList).intercalate (l.map g)) := by
    split_ifs with h0
    · exact vectorItems_ok f g l h
    · have : l = [] := by simpa using h0
      subst this
      rfl
  rw [e]
  simp [Res.bind]

/-- The text of a vector of any size lists the texts of all its elements, in order; it is followed by a newline. -/
theorem C96_vectors :
    (∀ l : List F32, reprVectorFloat l =
      .ok ("vectorFloat([".toList ++ (", ".toList).intercalate (l.map (print 6)) ++ "])\n".toList)) ∧
    (∀ l : List F32.Position2D, (∀ p ∈ l, IsFloat p.x ∧ IsFloat p.y) → reprVectorPosition2D l =
      .ok ("vectorPosition2D([".toList ++ (", ".toList).intercalate (l.map fun p =>
        pyCall "Position2D" [("x", print 6 p.x), ("y", print 6 p.y)]) ++ "])\n".toList)) ∧
    (∀ l : List Pose2D, (∀ p ∈ l, IsFloat p.x ∧ IsFloat p.y ∧ IsFloat p.theta) → reprVectorPose2D l =
      .ok ("vectorPose2D([".toList ++ (", ".toList).intercalate (l.map fun p =>
        pyCall "Pose2D" [("x", print 6 p.x), ("y", print 6 p.y), ("theta", print 6 p.theta)]) ++ "])\n".toList)) ∧
    (∀ l : List Position6D, (∀ p ∈ l, ∀ f ∈ [p.x, p.y, p.z, p.wx, p.wy, p.wz], IsFloat f) → reprVectorPosition6D l =
      .ok ("vectorPosition6D([".toList ++ (", ".toList).intercalate (l.map fun p =>
        pyCall "Position6D" [("x", print 6 p.x), ("y", print 6 p.y), ("z", print 6 p.z), ("wx", print 6 p.wx),
          ("wy", print 6 p.wy), ("wz", print 6 p.wz)]) ++ "])\n".toList)) :=
  ⟨fun l => reprVector_ok _ _ _ l fun _ _ => rfl,
    fun l h => reprVector_ok _ _ _ l fun p hp => C96_calls.2.1 p (by simpa using h p hp),
    fun l h => reprVector_ok _ _ _ l fun p hp => C96_calls.1 p (by simpa using h p hp),
    fun l h => reprVector_ok _ _ _ l fun p hp => C96_calls.2.2.2.2.1 p (h p hp)⟩

/-- Two numbers. -/
example : reprVectorFloat [fin 1, fin 0] = .ok "vectorFloat([1, 0])\n".toList := by
  rw [C96_vectors.1]
  simp [List.intercalate, print_one, print_zero]

theorem intercalate_inj : ∀ (l l' : List F32), (", ".toList).intercalate (l.map (print 6)) ++ "])\n".toList =
    (", ".toList).intercalate (l'.map (print 6)) ++ "])\n".toList → List.Forall₂ (fun a b => print 6 a = print 6 b) l l' := by
  have tl : ∀ (x : F32) (l : List F32), ∃ r, (", ".toList).intercalate ((x :: l).map (print 6)) ++ "])\n".toList =
      print 6 x ++ r ∧ (∀ c ∈ r.head?, c ∉ numberChars) ∧ ((l = [] ∧ r = "])\n".toList) ∨
        (l ≠ [] ∧ r = ", ".toList ++ ((", ".toList).intercalate (l.map (print 6)) ++ "])\n".toList))) := by
    intro x l
    cases l with
    | nil => exact ⟨"])\n".toList, by simp [List.intercalate], by decide, Or.inl ⟨rfl, rfl⟩⟩
    | cons y l =>
      refine ⟨", ".toList ++ ((", ".toList).intercalate ((y :: l).map (print 6)) ++ "])\n".toList), ?_, ?_, Or.inr ⟨by simp, rfl⟩⟩
      · simp [List.intercalate, List.intersperse]
      · intro c hc
        have : c = ',' := by simpa using hc.symm
        subst this
        decide
  have nil : ∀ (x : F32) (l : List F32), "])\n".toList ≠ (", ".toList).intercalate ((x :: l).map (print 6)) ++ "])\n".toList := by
    intro x l h
    obtain ⟨r, hr, -⟩ := tl x l
    rw [hr] at h
    have ne : print 6 x ≠ [] := by
      cases x with
      | fin x => exact (printReal_noBlank (by norm_num) x).2
      | nan => simp [print]
      | pinf => simp [print]
      | ninf => simp [print]
    obtain ⟨c, t, ht⟩ := List.exists_cons_of_ne_nil ne
    have hc : c ∈ numberChars := print_number x c (by simp [ht])
    rw [ht] at h
    have : ']' = c := (List.cons.inj h).1
    rw [← this] at hc
    exact absurd hc (by decide)
  intro l
  induction l with
  | nil =>
    intro l' h
    cases l' with
    | nil => exact .nil
    | cons y l' => exact absurd h (nil y l')
  | cons x l ih =>
    intro l' h
    cases l' with
    | nil => exact absurd h.symm (nil x l)
    | cons y l' =>
      obtain ⟨r, hr, hs, hc⟩ := tl x l
      obtain ⟨r', hr', hs', hc'⟩ := tl y l'
      rw [hr, hr'] at h
      obtain ⟨h1, h2⟩ := number_cut _ _ _ _ (print_number x) (print_number y) hs hs' h
      refine .cons h1 ?_
      rcases hc with ⟨h3, h4⟩ | ⟨h3, h4⟩ <;> rcases hc' with ⟨h5, h6⟩ | ⟨h5, h6⟩
      · rw [h3, h5]
        exact .nil
      · rw [h4, h6] at h2
        exact absurd (List.cons.inj h2).1 (by decide)
      · rw [h4, h6] at h2
        exact absurd (List.cons.inj h2).1 (by decide)
      · rw [h4, h6] at h2
        exact ih l' (List.append_cancel_left h2)

/-- Vectors of numbers with the same text have the same size and, up to five millionths, the same numbers. -/
theorem C96_same_vector (l l' : List F32) (h : reprVectorFloat l = reprVectorFloat l') : List.Forall₂ SameNumber l l' := by
  rw [C96_vectors.1, C96_vectors.1] at h
  have h1 := Res.ok.inj h
  rw [List.append_assoc, List.append_assoc] at h1
  exact (intercalate_inj l l' (List.append_cancel_left h1)).imp fun a b => C96_value a b

/-- A vector with one number more has another text. -/
example : reprVectorFloat [fin 1, fin 0] ≠ reprVectorFloat [fin 1] := fun h => by
  have := (C96_same_vector _ _ h).length_eq
  simp at this

end AlMath.PyText
