import Verif.Props.C52
import Mathlib.Topology.Order.IntermediateValue
import Mathlib.Topology.Algebra.Polynomial
import Mathlib.Tactic.Linarith
import Mathlib.Tactic.Ring
import Mathlib.Tactic.Positivity

/-!
C54: a curve that passes validation is the graph of a function.
-/

namespace AlMath

open Anim

namespace Spec

/-- Text of the `side` attribute. Not in /repo: specification. -/
def sideText : Side → String
  | .left => "left"
  | .right => "right"

/-- The element is for the given side. Not in /repo: specification. -/
def HasSide (pt : PTree) (side : Side) : Prop := pt.attr "side" = some (.str (sideText side))

/-- `t` is the first tangent of the key for the side; the tangents before it are for the other
side. Not in /repo: specification. -/
def FirstTangent (key : PTree) (side : Side) (t : PTree) : Prop :=
  ∃ l1 l2, key.children = l1 ++ ("Tangent", t) :: l2 ∧ HasSide t side ∧
    ∀ c ∈ l1, c.1 = "Tangent" → ∃ s, s ≠ side ∧ HasSide c.2 s

/-- A numeric attribute. Not in /repo: specification. -/
def NumAttr (pt : PTree) (name : String) (x : ℝ) : Prop := pt.attr name = some (.num x)

/-- The arc between two keys: times of the keys (`f0`, `f3`), their values, and the offsets of the
control points next to them. Not in /repo: specification. -/
structure Arc where
  f0 : ℤ
  v0 : ℝ
  dx1 : ℝ
  dy1 : ℝ
  dx2 : ℝ
  dy2 : ℝ
  f3 : ℤ
  v3 : ℝ

/-- The arc described by two adjacent keys. Not in /repo: specification. -/
def IsArc (p0 p3 : PTree) (a : Arc) : Prop :=
  FrameIs p0 a.f0 ∧ NumAttr p0 "value" a.v0 ∧ FrameIs p3 a.f3 ∧ NumAttr p3 "value" a.v3 ∧
  (∃ t, FirstTangent p0 .right t ∧ NumAttr t "abscissaParam" a.dx1 ∧ NumAttr t "ordinateParam" a.dy1) ∧
  (∃ t, FirstTangent p3 .left t ∧ NumAttr t "abscissaParam" a.dx2 ∧ NumAttr t "ordinateParam" a.dy2)

/-- Time of the point of the cubic Bezier curve with parameter `s`. Not in /repo: specification. -/
noncomputable def Arc.time (a : Arc) (s : ℝ) : ℝ :=
  (1 - s) ^ 3 * a.f0 + 3 * (1 - s) ^ 2 * s * (a.f0 + a.dx1) + 3 * (1 - s) * s ^ 2 * (a.f3 + a.dx2) +
    s ^ 3 * a.f3

/-- Value of the point of the cubic Bezier curve with parameter `s`. Not in /repo: specification. -/
noncomputable def Arc.value (a : Arc) (s : ℝ) : ℝ :=
  (1 - s) ^ 3 * a.v0 + 3 * (1 - s) ^ 2 * s * (a.v0 + a.dy1) + 3 * (1 - s) * s ^ 2 * (a.v3 + a.dy2) +
    s ^ 3 * a.v3

/-- The keys of a curve, in document order. Not in /repo: specification. -/
def keysOf (pt : PTree) : List PTree := (pt.children.filter fun c => c.1 = "Key").map Prod.snd

/-- Two adjacent keys are valid: an arc of positive duration, the tangents staying within it. Not in
/repo: specification. -/
def ValidPair (p0 p3 : PTree) : Prop :=
  ∃ a, IsArc p0 p3 a ∧ a.f0 < a.f3 ∧ 0 ≤ a.dx1 ∧ a.dx1 ≤ a.f3 - a.f0 ∧ a.dx2 ≤ 0 ∧
    a.f0 - a.f3 ≤ a.dx2

/-- The curve goes through the point `(t, y)`. Not in /repo: specification. -/
def Through (keys : List PTree) (t y : ℝ) : Prop :=
  ∃ i p0 p3 a s, keys[i]? = some p0 ∧ keys[i + 1]? = some p3 ∧ IsArc p0 p3 a ∧
    s ∈ Set.Icc (0 : ℝ) 1 ∧ a.time s = t ∧ a.value s = y

end Spec

open Spec

/-! ### Reading -/

theorem getSide_iff (pt : PTree) (s : Side) : getSide pt = .ok s ↔ HasSide pt s := by
  unfold getSide HasSide
  constructor
  · intro h
    split at h
    · rename_i e; rw [e, ← Res.ok.inj h]; rfl
    · rename_i e; rw [e, ← Res.ok.inj h]; rfl
    · cases h
  · intro h
    rw [h]
    cases s <;> rfl

theorem getSide_ne_ub (pt : PTree) : getSide pt ≠ .ub := by
  unfold getSide
  split <;> simp

theorem sideText_injective {s s' : Side} (h : sideText s = sideText s') : s = s' := by
  cases s <;> cases s' <;> first | rfl | (exfalso; revert h; simp [sideText])

theorem hasSide_unique {pt : PTree} {s s' : Side} (h : HasSide pt s) (h' : HasSide pt s') : s = s' := by
  have := h.symm.trans h'
  simp only [Option.some.injEq, Data.str.injEq] at this
  exact sideText_injective this

theorem findTangent_spec (side : Side) (l : List (String × PTree)) (i : ℕ) :
    findTangent side l i ≠ .ub ∧
    (∀ k, findTangent side l i = .ok (some k) ↔ ∃ l1 t l2, l = l1 ++ ("Tangent", t) :: l2 ∧
      k = i + l1.length ∧ HasSide t side ∧
      ∀ c ∈ l1, c.1 = "Tangent" → ∃ s, s ≠ side ∧ HasSide c.2 s) ∧
    (findTangent side l i = .ok none ↔ ∀ c ∈ l, c.1 = "Tangent" → ∃ s, s ≠ side ∧ HasSide c.2 s) := by
  induction l generalizing i with
  | nil =>
    refine ⟨by simp [findTangent], ?_, by simp [findTangent]⟩
    intro k
    simp [findTangent]
  | cons c l ih =>
    obtain ⟨ih1, ih2, ih3⟩ := ih (i + 1)
    have skip : (c.1 = "Tangent" → ∃ s, s ≠ side ∧ HasSide c.2 s) →
        (¬ (c.1 = "Tangent" ∧ HasSide c.2 side)) →
        findTangent side (c :: l) i = findTangent side l (i + 1) →
        findTangent side (c :: l) i ≠ .ub ∧
        (∀ k, findTangent side (c :: l) i = .ok (some k) ↔ ∃ l1 t l2, c :: l = l1 ++ ("Tangent", t) :: l2 ∧
          k = i + l1.length ∧ HasSide t side ∧
          ∀ c ∈ l1, c.1 = "Tangent" → ∃ s, s ≠ side ∧ HasSide c.2 s) ∧
        (findTangent side (c :: l) i = .ok none ↔
          ∀ c' ∈ c :: l, c'.1 = "Tangent" → ∃ s, s ≠ side ∧ HasSide c'.2 s) := by
      intro hc hn he
      rw [he]
      refine ⟨ih1, ?_, ?_⟩
      · intro k
        rw [ih2]
        constructor
        · rintro ⟨l1, t, l2, rfl, rfl, h1, h2⟩
          refine ⟨c :: l1, t, l2, rfl, by simp only [List.length_cons]; omega, h1, ?_⟩
          intro c' hc'
          rcases List.mem_cons.1 hc' with rfl | hc'
          · exact hc
          · exact h2 c' hc'
        · rintro ⟨l1, t, l2, e, hk, h1, h2⟩
          cases l1 with
          | nil =>
            exfalso
            simp only [List.nil_append, List.cons.injEq] at e
            exact hn (by rw [e.1]; exact ⟨rfl, h1⟩)
          | cons c1 l1 =>
            simp only [List.cons_append, List.cons.injEq] at e
            refine ⟨l1, t, l2, e.2, by rw [hk]; simp only [List.length_cons]; omega, h1, ?_⟩
            intro c' hc'
            exact h2 c' (List.mem_cons_of_mem _ hc')
      · rw [ih3]
        constructor
        · intro h c' hc'
          rcases List.mem_cons.1 hc' with rfl | hc'
          · exact hc
          · exact h c' hc'
        · intro h c' hc'
          exact h c' (List.mem_cons_of_mem _ hc')
    by_cases ht : c.1 = "Tangent"
    · cases hs : getSide c.2 with
      | ok s =>
        have hs' := (getSide_iff _ _).1 hs
        by_cases e : side = s
        · have hv : findTangent side (c :: l) i = .ok (some i) := by
            unfold findTangent
            rw [if_pos ht, hs]
            simp only [Res.bind_ok]
            rw [if_pos e]
          rw [hv]
          refine ⟨by simp, ?_, ?_⟩
          · intro k
            simp only [Res.ok.injEq, Option.some.injEq]
            constructor
            · rintro rfl
              exact ⟨[], c.2, l, by rw [← ht]; rfl, by simp, e ▸ hs', by simp⟩
            · rintro ⟨l1, t, l2, e', hk, h1, h2⟩
              cases l1 with
              | nil => simpa using hk.symm
              | cons c1 l1 =>
                exfalso
                simp only [List.cons_append, List.cons.injEq] at e'
                obtain ⟨s2, hs2, hs3⟩ := h2 c1 (by simp) (by rw [← e'.1]; exact ht)
                rw [← e'.1] at hs3
                exact hs2 ((hasSide_unique hs3 hs').trans e.symm)
          · constructor
            · intro h; cases h
            · intro h
              exfalso
              obtain ⟨s2, hs2, hs3⟩ := h c (by simp) ht
              exact hs2 ((hasSide_unique hs3 hs').trans e.symm)
        · refine skip (fun _ => ⟨s, fun h => e h.symm, hs'⟩) (fun h => e (hasSide_unique h.2 hs')) ?_
          conv_lhs => unfold findTangent
          rw [if_pos ht, hs]
          simp only [Res.bind_ok]
          rw [if_neg e]
      | throws =>
        have hv : findTangent side (c :: l) i = .throws := by
          unfold findTangent
          rw [if_pos ht, hs]
          rfl
        have hno : ∀ s, ¬ HasSide c.2 s := by
          intro s h
          rw [(getSide_iff _ _).2 h] at hs
          cases hs
        rw [hv]
        refine ⟨by simp, ?_, ?_⟩
        · intro k
          simp only [reduceCtorEq, false_iff]
          rintro ⟨l1, t, l2, e', hk, h1, h2⟩
          cases l1 with
          | nil =>
            simp only [List.nil_append, List.cons.injEq] at e'
            rw [e'.1] at hno
            exact hno _ h1
          | cons c1 l1 =>
            simp only [List.cons_append, List.cons.injEq] at e'
            obtain ⟨s2, hs2, hs3⟩ := h2 c1 (by simp) (by rw [← e'.1]; exact ht)
            rw [← e'.1] at hs3
            exact hno _ hs3
        · simp only [reduceCtorEq, false_iff]
          intro h
          obtain ⟨s2, hs2, hs3⟩ := h c (by simp) ht
          exact hno _ hs3
      | ub => exact absurd hs (getSide_ne_ub _)
    · refine skip (fun h => absurd h ht) (fun h => ht h.1) ?_
      conv_lhs => unfold findTangent
      rw [if_neg ht]

theorem getTangent_iff (key : PTree) (side : Side) (t : PTree) :
    getTangent key side = .ok t ↔ FirstTangent key side t := by
  obtain ⟨h1, h2, h3⟩ := findTangent_spec side key.children 0
  unfold getTangent getTangentOptional FirstTangent
  constructor
  · intro h
    cases hf : findTangent side key.children 0 with
    | ok o =>
      cases o with
      | none => simp [hf, mandatory] at h
      | some k =>
        obtain ⟨l1, t', l2, e, hk, ha, hb⟩ := (h2 k).1 hf
        rw [hf, e, hk] at h
        simp [mandatory] at h
        subst h
        exact ⟨l1, l2, e, ha, hb⟩
    | throws => rw [hf] at h; cases h
    | ub => exact absurd hf h1
  · rintro ⟨l1, l2, e, ha, hb⟩
    rw [(h2 (0 + l1.length)).2 ⟨l1, t, l2, e, rfl, ha, hb⟩, e]
    simp [mandatory]

theorem getTangent_ne_ub (key : PTree) (side : Side) : getTangent key side ≠ .ub := by
  obtain ⟨h1, -⟩ := findTangent_spec side key.children 0
  unfold getTangent getTangentOptional mandatory
  cases hf : findTangent side key.children 0 with
  | ok o =>
    simp only [Res.bind_ok]
    cases o.bind fun i => (key.children[i]?).map Prod.snd <;> simp
  | throws => simp
  | ub => exact absurd hf h1

theorem mandatory_real_iff (pt : PTree) (name : String) (x : ℝ) :
    mandatory ((pt.attr name).bind Data.toReal) = .ok x ↔ NumAttr pt name x := by
  unfold NumAttr
  cases h : pt.attr name with
  | none => simp [mandatory]
  | some d => cases d <;> simp [mandatory, Data.toReal]

theorem mandatory_ne_ub {α : Type} (o : Option α) : mandatory o ≠ .ub := by
  cases o <;> simp [mandatory]

theorem getValue_iff (pt : PTree) (x : ℝ) : getValue pt = .ok x ↔ NumAttr pt "value" x :=
  mandatory_real_iff pt _ x

theorem getAbscissa_iff (pt : PTree) (x : ℝ) : getAbscissa pt = .ok x ↔ NumAttr pt "abscissaParam" x :=
  mandatory_real_iff pt _ x

theorem getOrdinate_iff (pt : PTree) (x : ℝ) : getOrdinate pt = .ok x ↔ NumAttr pt "ordinateParam" x :=
  mandatory_real_iff pt _ x

/-- The arc of the arguments read. Helper of the proofs. Not in /repo: specification. -/
def arcOf (a : BezierArgs) : Arc :=
  ⟨a.p0Frame, a.p0Value, a.p1Dframe, a.p1Dvalue, a.p2Dframe, a.p2Dvalue, a.p3Frame, a.p3Value⟩

theorem bezierArgs_iff (p0 p3 : PTree) (a : BezierArgs) :
    bezierArgs p0 p3 = .ok a ↔ IsArc p0 p3 (arcOf a) := by
  unfold bezierArgs IsArc arcOf
  simp only [Res.bind_eq_ok, getTangent_iff, getFrame_iff, getValue_iff, getAbscissa_iff, getOrdinate_iff,
    Res.ok.injEq]
  constructor
  · rintro ⟨t1, h1, t2, h2, f0, h3, v0, h4, x1, h5, y1, h6, x2, h7, y2, h8, f3, h9, v3, h10, rfl⟩
    exact ⟨h3, h4, h9, h10, ⟨t1, h1, h5, h6⟩, ⟨t2, h2, h7, h8⟩⟩
  · rintro ⟨h3, h4, h9, h10, ⟨t1, h1, h5, h6⟩, ⟨t2, h2, h7, h8⟩⟩
    exact ⟨t1, h1, t2, h2, _, h3, _, h4, _, h5, _, h6, _, h7, _, h8, _, h9, _, h10, rfl⟩

theorem bind_ne_ub {α β : Type} {x : Res α} {f : α → Res β} (hx : x ≠ .ub)
    (hf : ∀ a, x = .ok a → f a ≠ .ub) : x.bind f ≠ .ub := by
  cases x with
  | ok a => exact hf a rfl
  | throws => simp
  | ub => exact absurd rfl hx

theorem bezierArgs_ne_ub (p0 p3 : PTree) : bezierArgs p0 p3 ≠ .ub := by
  unfold bezierArgs
  refine bind_ne_ub (getTangent_ne_ub _ _) fun _ _ => ?_
  refine bind_ne_ub (getTangent_ne_ub _ _) fun _ _ => ?_
  refine bind_ne_ub (getFrame_ne_ub _) fun _ _ => ?_
  refine bind_ne_ub (mandatory_ne_ub _) fun _ _ => ?_
  refine bind_ne_ub (mandatory_ne_ub _) fun _ _ => ?_
  refine bind_ne_ub (mandatory_ne_ub _) fun _ _ => ?_
  refine bind_ne_ub (mandatory_ne_ub _) fun _ _ => ?_
  refine bind_ne_ub (mandatory_ne_ub _) fun _ _ => ?_
  refine bind_ne_ub (getFrame_ne_ub _) fun _ _ => ?_
  refine bind_ne_ub (mandatory_ne_ub _) fun _ _ => ?_
  simp

/-- The check of one pair of keys. -/
theorem checkPair_iff (p0 p3 : PTree) :
    ((bezierArgs p0 p3).bind fun a =>
      checkInterval a.p0Frame a.p1Dframe a.p2Dframe a.p3Frame) ≠ .ub ∧
    (((bezierArgs p0 p3).bind fun a =>
      checkInterval a.p0Frame a.p1Dframe a.p2Dframe a.p3Frame) = .ok () ↔ ValidPair p0 p3) := by
  have range : ∀ a, bezierArgs p0 p3 = .ok a →
      ¬ (a.p3Frame - a.p0Frame < -2 ^ 31 ∨ 2 ^ 31 ≤ a.p3Frame - a.p0Frame) := by
    intro a ha
    obtain ⟨⟨-, h1, h2⟩, -, ⟨-, h3, h4⟩, -⟩ := (bezierArgs_iff _ _ _).1 ha
    simp only [arcOf] at h1 h2 h3 h4
    omega
  constructor
  · refine bind_ne_ub (bezierArgs_ne_ub _ _) fun a ha => ?_
    unfold checkInterval
    dsimp only
    rw [if_neg (range a ha)]
    split_ifs <;> simp
  · rw [Res.bind_eq_ok]
    constructor
    · rintro ⟨a, ha, hc⟩
      refine ⟨arcOf a, (bezierArgs_iff _ _ _).1 ha, ?_⟩
      unfold checkInterval at hc
      dsimp only at hc
      rw [if_neg (range a ha)] at hc
      split_ifs at hc with h1 h2 h3
      simp only [not_or, not_lt, gt_iff_lt, not_le] at h1 h2 h3
      push_cast at h2 h3
      simp only [arcOf]
      refine ⟨by omega, h2.1, h2.2, h3.1, by linarith [h3.2]⟩
    · rintro ⟨a, ha, h1, h2, h3, h4, h5⟩
      refine ⟨⟨a.f0, a.v0, a.dx1, a.dy1, a.dx2, a.dy2, a.f3, a.v3⟩, (bezierArgs_iff _ _ _).2 ha, ?_⟩
      unfold checkInterval
      dsimp only
      have hr := range _ ((bezierArgs_iff p0 p3 ⟨a.f0, a.v0, a.dx1, a.dy1, a.dx2, a.dy2, a.f3, a.v3⟩).2 ha)
      rw [if_neg hr, if_neg (by omega), if_neg, if_neg]
      · push_cast
        rintro (h | h) <;> linarith
      · push_cast
        rintro (h | h) <;> linarith

theorem adjacentForEach_spec {α : Type} {op : α → α → Res Unit} {V : α → α → Prop}
    (hub : ∀ a b, op a b ≠ .ub) (hok : ∀ a b, op a b = .ok () ↔ V a b) (l : List α) :
    adjacentForEach op l ≠ .ub ∧
      (adjacentForEach op l = .ok () ↔
        ∀ i a b, l[i]? = some a → l[i + 1]? = some b → V a b) := by
  induction l with
  | nil => simp [adjacentForEach]
  | cons a l ih =>
    cases l with
    | nil => simp [adjacentForEach]
    | cons b l =>
      rw [adjacentForEach]
      refine ⟨bind_ne_ub (hub a b) fun _ _ => ih.1, ?_⟩
      rw [Res.bind_eq_ok]
      constructor
      · rintro ⟨⟨⟩, h1, h2⟩ i c d hc hd
        cases i with
        | zero =>
          simp only [List.getElem?_cons_zero, Option.some.injEq, zero_add, List.getElem?_cons_succ] at hc hd
          rw [← hc, ← hd]
          exact (hok a b).1 h1
        | succ i =>
          rw [List.getElem?_cons_succ] at hc hd
          exact ih.2.1 h2 i c d hc hd
      · intro h
        refine ⟨(), (hok a b).2 (h 0 a b rfl rfl), ih.2.2 ?_⟩
        intro i c d hc hd
        exact h (i + 1) c d (by rw [List.getElem?_cons_succ]; exact hc)
          (by rw [List.getElem?_cons_succ]; exact hd)

/-! ### C54 -/

/-- `check_cubic_bezier` accepts a curve exactly when all its pairs of adjacent keys are valid, and
throws otherwise. -/
theorem C54_check (pt : PTree) :
    (checkCubicBezier pt = .ok () ↔
      ∀ i p0 p3, (keysOf pt)[i]? = some p0 → (keysOf pt)[i + 1]? = some p3 → ValidPair p0 p3) ∧
    (checkCubicBezier pt ≠ .ok () → checkCubicBezier pt = .throws) := by
  have h := adjacentForEach_spec (V := ValidPair) (fun a b => (checkPair_iff a b).1)
    (fun a b => (checkPair_iff a b).2) (getKeys pt)
  refine ⟨h.2, ?_⟩
  intro hne
  have hub : checkCubicBezier pt ≠ .ub := h.1
  cases hc : checkCubicBezier pt with
  | ok u => cases u; exact absurd hc hne
  | throws => rfl
  | ub => exact absurd hc hub

theorem arc_unique {p0 p3 : PTree} {a b : Arc} (ha : IsArc p0 p3 a) (hb : IsArc p0 p3 b) : a = b := by
  have ha' := (bezierArgs_iff p0 p3 ⟨a.f0, a.v0, a.dx1, a.dy1, a.dx2, a.dy2, a.f3, a.v3⟩).2 ha
  have hb' := (bezierArgs_iff p0 p3 ⟨b.f0, b.v0, b.dx1, b.dy1, b.dx2, b.dy2, b.f3, b.v3⟩).2 hb
  rw [ha'] at hb'
  have := Res.ok.inj hb'
  simp only [BezierArgs.mk.injEq] at this
  obtain ⟨h1, h2, h3, h4, h5, h6, h7, h8⟩ := this
  cases a; cases b
  simp_all

/-- Frames increase along the keys of a curve accepted by `check_cubic_bezier`. -/
theorem C54_frames (pt : PTree) (h : checkCubicBezier pt = .ok ()) (i j : ℕ) (p q : PTree)
    (hij : i < j) (hp : (keysOf pt)[i]? = some p) (hq : (keysOf pt)[j]? = some q) :
    ∃ f g, FrameIs p f ∧ FrameIs q g ∧ f < g := by
  have hv := (C54_check pt).1.1 h
  induction j generalizing q with
  | zero => omega
  | succ j ih =>
    have hj : j < (keysOf pt).length := by
      by_contra hc
      rw [List.getElem?_eq_none (by omega)] at hq
      cases hq
    obtain ⟨a, ha, hlt, -⟩ := hv j _ q (List.getElem?_eq_getElem hj) hq
    rcases Nat.lt_succ_iff_lt_or_eq.1 hij with hij' | rfl
    · obtain ⟨f, g, h1, h2, h3⟩ := ih _ hij' (List.getElem?_eq_getElem hj)
      have := frameIs_unique h2 ha.1
      exact ⟨f, a.f3, h1, ha.2.2.1, by omega⟩
    · rw [List.getElem?_eq_getElem hj] at hp
      have := Option.some.inj hp
      subst this
      exact ⟨a.f0, a.f3, ha.1, ha.2.2.1, hlt⟩

theorem bezier_basis (α γ r s : ℝ) (ha0 : 0 ≤ α) (ha1 : α ≤ 1) (hg0 : 0 ≤ γ) (hg1 : γ ≤ 1)
    (hr : 0 ≤ r) (hrs : r < s) (hs : s ≤ 1) :
    3 * (1 - r) ^ 2 * r * α + 3 * (1 - r) * r ^ 2 * (1 - γ) + r ^ 3 <
      3 * (1 - s) ^ 2 * s * α + 3 * (1 - s) * s ^ 2 * (1 - γ) + s ^ 3 := by
  have h1 : 0 < (3 * s ^ 2 - 2 * s ^ 3) - (3 * r ^ 2 - 2 * r ^ 3) := by
    have : 0 < (s - r) * (3 * (s + r) - 2 * (s ^ 2 + s * r + r ^ 2)) := by
      apply mul_pos (by linarith)
      nlinarith [mul_pos (by linarith : 0 < s) (by linarith : 0 < 1 - r),
        mul_nonneg hr (by linarith : 0 ≤ 1 - s), mul_nonneg hr (by linarith : 0 ≤ 1 - r),
        mul_nonneg (by linarith : 0 ≤ s) (by linarith : 0 ≤ 1 - s)]
    nlinarith [this]
  have h2 : 0 < (1 - r) ^ 3 - (1 - s) ^ 3 := by
    have := pow_lt_pow_left₀ (by linarith : 1 - s < 1 - r) (by linarith) (n := 3) (by norm_num)
    linarith
  have h3 : 0 < s ^ 3 - r ^ 3 := by
    have := pow_lt_pow_left₀ hrs hr (n := 3) (by norm_num)
    linarith
  have h4 : 0 < ((1 - 2 * r) ^ 3 - (1 - 2 * s) ^ 3) / 2 := by
    have : 0 < (2 * s - 2 * r) * ((1 - 2 * r) ^ 2 + (1 - 2 * r) * (1 - 2 * s) + (1 - 2 * s) ^ 2) := by
      apply mul_pos (by linarith)
      nlinarith [sq_nonneg ((1 - 2 * r) + (1 - 2 * s)), sq_pos_of_pos (by linarith : 0 < s - r)]
    nlinarith [this]
  set d1 := (3 * s ^ 2 - 2 * s ^ 3) - (3 * r ^ 2 - 2 * r ^ 3) with e1
  set d2 := (1 - r) ^ 3 - (1 - s) ^ 3 with e2
  set d3 := s ^ 3 - r ^ 3 with e3
  set d4 := ((1 - 2 * r) ^ 3 - (1 - 2 * s) ^ 3) / 2 with e4
  have key : (3 * (1 - s) ^ 2 * s * α + 3 * (1 - s) * s ^ 2 * (1 - γ) + s ^ 3) -
      (3 * (1 - r) ^ 2 * r * α + 3 * (1 - r) * r ^ 2 * (1 - γ) + r ^ 3) =
      (1 - α) * (1 - γ) * d1 + α * (1 - γ) * d2 + (1 - α) * γ * d3 + α * γ * d4 := by
    rw [e1, e2, e3, e4]; ring
  have hm : 0 < (1 - α) * (1 - γ) * d1 + α * (1 - γ) * d2 + (1 - α) * γ * d3 + α * γ * d4 := by
    set m := min (min d1 d2) (min d3 d4) with em
    have hm0 : 0 < m := by
      rw [em]; exact lt_min (lt_min h1 h2) (lt_min h3 h4)
    have m1 : m ≤ d1 := (min_le_left _ _).trans (min_le_left _ _)
    have m2 : m ≤ d2 := (min_le_left _ _).trans (min_le_right _ _)
    have m3 : m ≤ d3 := (min_le_right _ _).trans (min_le_left _ _)
    have m4 : m ≤ d4 := (min_le_right _ _).trans (min_le_right _ _)
    have w1 := mul_le_mul_of_nonneg_left m1
      (mul_nonneg (by linarith : 0 ≤ 1 - α) (by linarith : 0 ≤ 1 - γ))
    have w2 := mul_le_mul_of_nonneg_left m2 (mul_nonneg ha0 (by linarith : 0 ≤ 1 - γ))
    have w3 := mul_le_mul_of_nonneg_left m3 (mul_nonneg (by linarith : 0 ≤ 1 - α) hg0)
    have w4 := mul_le_mul_of_nonneg_left m4 (mul_nonneg ha0 hg0)
    have : (1 - α) * (1 - γ) * m + α * (1 - γ) * m + (1 - α) * γ * m + α * γ * m = m := by ring
    linarith
  linarith

theorem arc_strictMono {a : Arc} (h : a.f0 < a.f3) (h1 : 0 ≤ a.dx1) (h2 : a.dx1 ≤ a.f3 - a.f0)
    (h3 : a.dx2 ≤ 0) (h4 : a.f0 - a.f3 ≤ a.dx2) : StrictMonoOn a.time (Set.Icc 0 1) := by
  have hD : (0 : ℝ) < a.f3 - a.f0 := by
    have : (a.f0 : ℝ) < a.f3 := by exact_mod_cast h
    linarith
  intro r hr s hs hrs
  have hb := bezier_basis (a.dx1 / (a.f3 - a.f0)) (-a.dx2 / (a.f3 - a.f0)) r s (by positivity)
    ((div_le_one hD).2 h2) (div_nonneg (by linarith) hD.le) ((div_le_one hD).2 (by linarith))
    hr.1 hrs hs.2
  have e : ∀ x, a.time x = a.f0 + (a.f3 - a.f0) * (3 * (1 - x) ^ 2 * x * (a.dx1 / (a.f3 - a.f0)) +
      3 * (1 - x) * x ^ 2 * (1 - -a.dx2 / (a.f3 - a.f0)) + x ^ 3) := by
    intro x
    unfold Arc.time
    have := hD.ne'
    field_simp
    ring
  rw [e r, e s]
  have := mul_lt_mul_of_pos_left hb hD
  linarith

theorem arc_continuous (a : Arc) : Continuous a.time := by
  unfold Arc.time
  fun_prop

theorem arc_ends (a : Arc) : a.time 0 = a.f0 ∧ a.time 1 = a.f3 ∧ a.value 0 = a.v0 ∧ a.value 1 = a.v3 := by
  refine ⟨?_, ?_, ?_, ?_⟩ <;> simp [Arc.time, Arc.value]

/-- On a curve accepted by `check_cubic_bezier`, two adjacent keys describe one arc, which goes from
the first key to the second and whose time strictly increases with the parameter. -/
theorem C54_monotone (pt : PTree) (h : checkCubicBezier pt = .ok ()) (i : ℕ) (p0 p3 : PTree)
    (hp : (keysOf pt)[i]? = some p0) (hq : (keysOf pt)[i + 1]? = some p3) :
    ∃! a, IsArc p0 p3 a ∧ StrictMonoOn a.time (Set.Icc 0 1) ∧
      a.time 0 = a.f0 ∧ a.time 1 = a.f3 ∧ a.value 0 = a.v0 ∧ a.value 1 = a.v3 := by
  obtain ⟨a, ha, h1, h2, h3, h4, h5⟩ := (C54_check pt).1.1 h i p0 p3 hp hq
  exact ⟨a, ⟨ha, arc_strictMono h1 h2 h3 h4 h5, arc_ends a⟩, fun b hb => arc_unique hb.1 ha⟩

theorem through_exists (keys : List PTree)
    (hv : ∀ i p0 p3, keys[i]? = some p0 → keys[i + 1]? = some p3 → ValidPair p0 p3)
    (n : ℕ) (p q : PTree) (f g : ℤ) (hp : keys[0]? = some p) (hq : keys[n + 1]? = some q)
    (hf : FrameIs p f) (hg : FrameIs q g) (t : ℝ) (h1 : (f : ℝ) ≤ t) (h2 : t ≤ g) :
    ∃ y, Through keys t y := by
  induction n generalizing q g with
  | zero =>
    obtain ⟨a, ha, l1, l2, l3, l4, l5⟩ := hv 0 p q hp hq
    have e0 := frameIs_unique hf ha.1
    have e3 := frameIs_unique hg ha.2.2.1
    have hends := arc_ends a
    have hivt := intermediate_value_Icc (zero_le_one (α := ℝ)) (arc_continuous a).continuousOn
    obtain ⟨s, hs, hst⟩ := hivt (show t ∈ Set.Icc (a.time 0) (a.time 1) by
      rw [hends.1, hends.2.1, ← e0, ← e3]; exact ⟨h1, h2⟩)
    exact ⟨a.value s, 0, p, q, a, s, hp, hq, ha, hs, hst, rfl⟩
  | succ n ih =>
    have hj : n + 1 < keys.length := by
      by_contra hc
      rw [List.getElem?_eq_none (by omega)] at hq
      cases hq
    obtain ⟨a, ha, l1, l2, l3, l4, l5⟩ := hv (n + 1) _ q (List.getElem?_eq_getElem hj) hq
    by_cases ht : t ≤ a.f0
    · exact ih _ _ (List.getElem?_eq_getElem hj) ha.1 ht
    · have e3 := frameIs_unique hg ha.2.2.1
      have hends := arc_ends a
      have hivt := intermediate_value_Icc (zero_le_one (α := ℝ)) (arc_continuous a).continuousOn
      obtain ⟨s, hs, hst⟩ := hivt (show t ∈ Set.Icc (a.time 0) (a.time 1) by
        rw [hends.1, hends.2.1, ← e3]; exact ⟨(not_le.1 ht).le, h2⟩)
      exact ⟨a.value s, n + 1, _, q, a, s, List.getElem?_eq_getElem hj, hq, ha, hs, hst, rfl⟩

/-- A curve accepted by `check_cubic_bezier` is the graph of a function: between the first and the
last key, each time has exactly one value. -/
theorem C54_function (pt : PTree) (h : checkCubicBezier pt = .ok ()) (n : ℕ) (p q : PTree) (f g : ℤ)
    (hn : (keysOf pt).length = n + 2) (hp : (keysOf pt)[0]? = some p)
    (hq : (keysOf pt)[n + 1]? = some q) (hf : FrameIs p f) (hg : FrameIs q g) (t : ℝ)
    (h1 : (f : ℝ) ≤ t) (h2 : t ≤ g) : ∃! y, Through (keysOf pt) t y := by
  have hv := (C54_check pt).1.1 h
  obtain ⟨y, hy⟩ := through_exists (keysOf pt) hv n p q f g hp hq hf hg t h1 h2
  refine ⟨y, hy, ?_⟩
  have core : ∀ y y', Through (keysOf pt) t y → Through (keysOf pt) t y' → y' = y := by
    have wlog' : ∀ i j p0 p3 q0 q3 a b s r, (keysOf pt)[i]? = some p0 → (keysOf pt)[i + 1]? = some p3 →
        (keysOf pt)[j]? = some q0 → (keysOf pt)[j + 1]? = some q3 → IsArc p0 p3 a → IsArc q0 q3 b →
        s ∈ Set.Icc (0 : ℝ) 1 → r ∈ Set.Icc (0 : ℝ) 1 → Arc.time a s = t → Arc.time b r = t → i ≤ j →
        Arc.value a s = Arc.value b r := by
      intro i j p0 p3 q0 q3 a b s r hp0 hp3 hq0 hq3 ha hb hs hr hst hrt hij
      obtain ⟨a', ha', l1, l2, l3, l4, l5⟩ := hv i p0 p3 hp0 hp3
      obtain rfl := arc_unique ha ha'
      obtain ⟨b', hb', m1, m2, m3, m4, m5⟩ := hv j q0 q3 hq0 hq3
      obtain rfl := arc_unique hb hb'
      have ma := arc_strictMono l1 l2 l3 l4 l5
      have mb := arc_strictMono m1 m2 m3 m4 m5
      have z : (0 : ℝ) ∈ Set.Icc (0 : ℝ) 1 := ⟨le_refl _, zero_le_one⟩
      have o : (1 : ℝ) ∈ Set.Icc (0 : ℝ) 1 := ⟨zero_le_one, le_refl _⟩
      rcases Nat.eq_or_lt_of_le hij with rfl | hlt
      · rw [hp0] at hq0; rw [hp3] at hq3
        obtain rfl := Option.some.inj hq0
        obtain rfl := Option.some.inj hq3
        obtain rfl := arc_unique ha hb
        rw [ma.injOn hs hr (hst.trans hrt.symm)]
      · have ea := arc_ends a
        have eb := arc_ends b
        have t1 : t ≤ a.f3 := by
          rw [← hst, ← ea.2.1]
          exact ma.monotoneOn hs o hs.2
        have t2 : (b.f0 : ℝ) ≤ t := by
          rw [← hrt, ← eb.1]
          exact mb.monotoneOn z hr hr.1
        rcases Nat.eq_or_lt_of_le (Nat.succ_le_of_lt hlt) with e | hlt'
        · have e' : i + 1 = j := e
          subst e'
          rw [hp3] at hq0
          obtain rfl := Option.some.inj hq0
          have ef := frameIs_unique ha.2.2.1 hb.1
          rw [ef] at t1
          have ht : t = b.f0 := le_antisymm t1 t2
          have hs1 : s = 1 := ma.injOn hs o (by rw [hst, ea.2.1, ht, ef])
          have hr0 : r = 0 := mb.injOn hr z (by rw [hrt, eb.1, ht])
          rw [hs1, hr0, ea.2.2.2, eb.2.2.1]
          have := ha.2.2.2.1.symm.trans hb.2.1
          simpa using this
        · exfalso
          obtain ⟨f1, g1, e1, e2, e3⟩ := C54_frames pt h (i + 1) j p3 q0 hlt' hp3 hq0
          rw [frameIs_unique e1 ha.2.2.1, frameIs_unique e2 hb.1] at e3
          have : (a.f3 : ℝ) < b.f0 := by exact_mod_cast e3
          linarith
    rintro y y' ⟨i, p0, p3, a, s, hp0, hp3, ha, hs, hst, rfl⟩ ⟨j, q0, q3, b, r, hq0, hq3, hb, hr, hrt, rfl⟩
    rcases le_total i j with hij | hij
    · exact (wlog' i j _ _ _ _ a b s r hp0 hp3 hq0 hq3 ha hb hs hr hst hrt hij).symm
    · exact wlog' j i _ _ _ _ b a r s hq0 hq3 hp0 hp3 hb ha hr hs hrt hst hij
  intro y' hy'
  exact core y y' hy hy'

/-- A tangent element. Helper of the proofs. Not in /repo: specification. -/
noncomputable def tangentElem (side : String) (x y : ℝ) : PTree :=
  .node (.str "") [("<xmlattr>", .node (.str "") [("side", .node (.str side) []),
    ("abscissaParam", .node (.num x) []), ("ordinateParam", .node (.num y) [])])]

/-- A key element with tangents. Helper of the proofs. Not in /repo: specification. -/
noncomputable def keyElem (f : ℤ) (v x1 y1 x2 y2 : ℝ) : PTree :=
  .node (.str "") [("<xmlattr>", .node (.str "") [("frame", .node (.num f) []), ("value", .node (.num v) [])]),
    ("Tangent", tangentElem "left" x1 y1), ("Tangent", tangentElem "right" x2 y2)]

theorem keyElem_valid : ValidPair (keyElem 0 1 (-1) 0 3 2) (keyElem 10 5 (-10) 1 4 2) := by
  refine ⟨⟨0, 1, 3, 2, -10, 1, 10, 5⟩, ⟨⟨?_, by norm_num, by norm_num⟩, ?_, ⟨?_, by norm_num, by norm_num⟩,
    ?_, ⟨tangentElem "right" 3 2, ⟨[_, _], [], rfl, ?_, ?_⟩, ?_, ?_⟩,
    ⟨tangentElem "left" (-10) 1, ⟨[_], [_], rfl, ?_, ?_⟩, ?_, ?_⟩⟩, by norm_num, by norm_num, by norm_num,
    by norm_num, by norm_num⟩
  · simp [keyElem, PTree.attr, PTree.find, PTree.children, PTree.data]
  · simp [NumAttr, keyElem, PTree.attr, PTree.find, PTree.children, PTree.data]
  · simp [keyElem, PTree.attr, PTree.find, PTree.children, PTree.data]
  · simp [NumAttr, keyElem, PTree.attr, PTree.find, PTree.children, PTree.data]
  · simp [HasSide, sideText, tangentElem, PTree.attr, PTree.find, PTree.children, PTree.data]
  · intro c hc ht
    simp only [List.mem_cons, List.not_mem_nil, or_false] at hc
    rcases hc with rfl | rfl
    · simp at ht
    · refine ⟨.left, by simp, ?_⟩
      simp [HasSide, sideText, tangentElem, PTree.attr, PTree.find, PTree.children, PTree.data]
  · simp [NumAttr, tangentElem, PTree.attr, PTree.find, PTree.children, PTree.data]
  · simp [NumAttr, tangentElem, PTree.attr, PTree.find, PTree.children, PTree.data]
  · simp [HasSide, sideText, tangentElem, PTree.attr, PTree.find, PTree.children, PTree.data]
  · intro c hc ht
    simp only [List.mem_cons, List.not_mem_nil, or_false] at hc
    subst hc
    simp at ht
  · simp [NumAttr, tangentElem, PTree.attr, PTree.find, PTree.children, PTree.data]
  · simp [NumAttr, tangentElem, PTree.attr, PTree.find, PTree.children, PTree.data]

/-- A curve with two keys. Helper of the proofs. Not in /repo: specification. -/
noncomputable def twoKeys : PTree :=
  .node (.str "") [("<xmlattr>", .empty), ("Key", keyElem 0 1 (-1) 0 3 2), ("Key", keyElem 10 5 (-10) 1 4 2)]

theorem twoKeys_ok : checkCubicBezier twoKeys = .ok () := by
  refine (C54_check twoKeys).1.2 ?_
  have e : keysOf twoKeys = [keyElem 0 1 (-1) 0 3 2, keyElem 10 5 (-10) 1 4 2] := by
    simp [keysOf, twoKeys, PTree.children]
  rw [e]
  intro i p0 p3 h0 h3
  match i with
  | 0 =>
    simp only [List.getElem?_cons_zero, Option.some.injEq, zero_add, List.getElem?_cons_succ] at h0 h3
    rw [← h0, ← h3]
    exact keyElem_valid
  | i + 1 => simp at h3

example : checkCubicBezier twoKeys = .ok () ∧ (keysOf twoKeys).length = 0 + 2 :=
  ⟨twoKeys_ok, by simp [keysOf, twoKeys, PTree.children]⟩

end AlMath
