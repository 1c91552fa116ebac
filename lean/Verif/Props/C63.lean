import Verif.Props.C55

/-!
C63: validation and edition of animation documents.
-/

namespace AlMath

open Anim

namespace Spec

/-- A curve element that can be played. Not in /repo: specification. -/
def ValidCurve (curve : PTree) : Prop :=
  (∃ d, curve.attr "actuator" = some d) ∧
  (∃ n : ℤ, curve.attr "fps" = some (.num n) ∧ 0 < n ∧ n < 2 ^ 31) ∧
  (∃ u, curve.attr "unit" = some (.str u) ∧ u ∈ ["dimensionless", "radian", "degree", "meter"]) ∧
  ∀ i p0 p3, (keysOf curve)[i]? = some p0 → (keysOf curve)[i + 1]? = some p3 → ValidPair p0 p3

/-- An animation of version 2.0 with valid curves. Not in /repo: specification. -/
def ValidAnimation (pt : PTree) : Prop :=
  pt.attr "typeVersion" = some (.str "2.0") ∧
  ∀ c ∈ pt.children, c.1 = "ActuatorCurve" → ValidCurve c.2

/-- `c` is a curve of the actuator. Not in /repo: specification. -/
def IsCurveOf (actuator : String) (c : String × PTree) : Prop :=
  c.1 = "ActuatorCurve" ∧ c.2.attr "actuator" = some (.str actuator)

/-- All curves have an actuator. Not in /repo: specification. -/
def Actuated (pt : PTree) : Prop :=
  ∀ c ∈ pt.children, c.1 = "ActuatorCurve" → ∃ d, c.2.attr "actuator" = some d

end Spec

open Spec

theorem checkVersion_iff (pt : PTree) :
    checkVersion pt ≠ .ub ∧ (checkVersion pt = .ok () ↔ pt.attr "typeVersion" = some (.str "2.0")) := by
  unfold checkVersion
  split
  · rename_i h; exact ⟨by simp, by simp [h]⟩
  · rename_i h
    refine ⟨by simp, ?_⟩
    simp only [reduceCtorEq, false_iff]
    exact h

theorem getActuator_iff (pt : PTree) (d : Data) :
    getActuator pt = .ok d ↔ pt.attr "actuator" = some d := by
  unfold getActuator
  cases pt.attr "actuator" <;> simp [mandatory]

theorem getFps_iff (pt : PTree) (n : ℤ) :
    getFps pt = .ok n ↔ pt.attr "fps" = some (.num n) ∧ 0 < n ∧ n < 2 ^ 31 := by
  unfold getFps
  constructor
  · intro h
    cases ha : pt.attr "fps" with
    | none => simp [ha, mandatory] at h
    | some d =>
      cases hd : d.toInt with
      | none => simp [ha, hd, mandatory] at h
      | some m =>
        simp only [ha, hd, mandatory, Option.bind_some, Res.bind_ok] at h
        split_ifs at h with hn
        have e := Res.ok.inj h
        subst e
        obtain ⟨rfl, -, h2⟩ := toInt_eq hd
        exact ⟨rfl, by omega, h2⟩
  · rintro ⟨h1, h2, h3⟩
    rw [h1]
    simp only [Option.bind_some]
    rw [toInt_int n (by omega) h3]
    simp only [mandatory, Res.bind_ok]
    rw [if_neg (by omega)]

theorem getFps_ne_ub (pt : PTree) : getFps pt ≠ .ub := by
  unfold getFps
  refine bind_ne_ub (mandatory_ne_ub _) fun _ _ => ?_
  split_ifs <;> simp

theorem getUnit_iff (pt : PTree) (u : Unit') :
    getUnit pt = .ok u ↔ pt.attr "unit" = some (.str (unitString u)) := by
  unfold getUnit
  constructor
  · intro h
    split at h
    · rename_i e; rw [e, ← Res.ok.inj h]; rfl
    · rename_i e; rw [e, ← Res.ok.inj h]; rfl
    · rename_i e; rw [e, ← Res.ok.inj h]; rfl
    · rename_i e; rw [e, ← Res.ok.inj h]; rfl
    · cases h
  · intro h
    rw [h]
    cases u <;> rfl

theorem getUnit_ne_ub (pt : PTree) : getUnit pt ≠ .ub := by
  unfold getUnit
  split <;> simp

theorem getMute_ok (pt : PTree) : ∃ b, getMute pt = .ok b := by
  unfold getMute
  split
  · exact ⟨_, rfl⟩
  · exact ⟨_, rfl⟩
  · exact ⟨_, rfl⟩

theorem checkCubicBezier_ne_ub (pt : PTree) : checkCubicBezier pt ≠ .ub := by
  intro h
  have := (C54_check pt).2 (by rw [h]; simp)
  rw [h] at this
  cases this

theorem checkCurve_iff (curve : PTree) :
    checkCurve curve ≠ .ub ∧ (checkCurve curve = .ok () ↔ ValidCurve curve) := by
  obtain ⟨m, hm⟩ := getMute_ok curve
  unfold checkCurve
  constructor
  · refine bind_ne_ub (mandatory_ne_ub _) fun _ _ => ?_
    refine bind_ne_ub (getFps_ne_ub _) fun _ _ => ?_
    refine bind_ne_ub (by rw [hm]; simp) fun _ _ => ?_
    refine bind_ne_ub (getUnit_ne_ub _) fun _ _ => checkCubicBezier_ne_ub _
  · simp only [Res.bind_eq_ok, getActuator_iff, getFps_iff, getUnit_iff, hm, Res.ok.injEq]
    rw [(C54_check curve).1]
    constructor
    · rintro ⟨d, h1, n, h2, -, -, u, h3, h4⟩
      refine ⟨⟨d, h1⟩, ⟨n, h2⟩, ⟨_, h3, ?_⟩, h4⟩
      cases u <;> simp [unitString]
    · rintro ⟨⟨d, h1⟩, ⟨n, h2⟩, ⟨u, h3, hu⟩, h4⟩
      refine ⟨d, h1, n, h2, m, rfl, ?_⟩
      simp only [List.mem_cons, List.not_mem_nil, or_false] at hu
      rcases hu with rfl | rfl | rfl | rfl
      · exact ⟨.dimensionless, h3, h4⟩
      · exact ⟨.radian, h3, h4⟩
      · exact ⟨.degree, h3, h4⟩
      · exact ⟨.meter, h3, h4⟩

theorem forEach_spec {α : Type} {op : α → Res Unit} {V : α → Prop}
    (hub : ∀ a, op a ≠ .ub) (hok : ∀ a, op a = .ok () ↔ V a) (l : List α) :
    forEach op l ≠ .ub ∧ (forEach op l = .ok () ↔ ∀ a ∈ l, V a) := by
  induction l with
  | nil => simp [forEach]
  | cons a l ih =>
    rw [forEach]
    refine ⟨bind_ne_ub (hub a) fun _ _ => ih.1, ?_⟩
    rw [Res.bind_eq_ok]
    simp only [List.mem_cons, forall_eq_or_imp]
    constructor
    · rintro ⟨⟨⟩, h1, h2⟩
      exact ⟨(hok a).1 h1, ih.2.1 h2⟩
    · rintro ⟨h1, h2⟩
      exact ⟨(), (hok a).2 h1, ih.2.2 h2⟩

/-- `check_all` accepts exactly the valid animations and throws on the others. -/
theorem C63_check_all (pt : PTree) :
    (checkAll pt = .ok () ↔ ValidAnimation pt) ∧ (¬ ValidAnimation pt → checkAll pt = .throws) := by
  obtain ⟨v1, v2⟩ := checkVersion_iff pt
  obtain ⟨f1, f2⟩ := forEach_spec (fun a => (checkCurve_iff a).1) (fun a => (checkCurve_iff a).2)
    (getActuatorCurves pt)
  have hok : checkAll pt = .ok () ↔ ValidAnimation pt := by
    unfold checkAll ValidAnimation
    rw [Res.bind_eq_ok]
    constructor
    · rintro ⟨⟨⟩, h1, h2⟩
      refine ⟨v2.1 h1, ?_⟩
      intro c hc ht
      exact f2.1 h2 c.2 (List.mem_map.2 ⟨c, List.mem_filter.2 ⟨hc, by simpa using ht⟩, rfl⟩)
    · rintro ⟨h1, h2⟩
      refine ⟨(), v2.2 h1, f2.2 ?_⟩
      intro a ha
      obtain ⟨c, hc, rfl⟩ := List.mem_map.1 ha
      obtain ⟨hc1, hc2⟩ := List.mem_filter.1 hc
      exact h2 c hc1 (by simpa using hc2)
  refine ⟨hok, ?_⟩
  intro hn
  have hub : checkAll pt ≠ .ub := bind_ne_ub v1 fun _ _ => f1
  cases hc : checkAll pt with
  | ok u => cases u; exact absurd (hok.1 hc) hn
  | throws => rfl
  | ub => exact absurd hc hub

/-- An animation with one curve. Helper of the proofs. Not in /repo: specification. -/
noncomputable def oneCurve : PTree :=
  .node (.str "") [("<xmlattr>", .node (.str "") [("typeVersion", .node (.str "2.0") [])]),
    ("ActuatorCurve", .node (.str "") [("<xmlattr>", .node (.str "") [
        ("actuator", .node (.str "HeadYaw") []), ("fps", .node (.num (25 : ℤ)) []),
        ("unit", .node (.str "degree") [])]),
      ("Key", keyElem 0 1 (-1) 0 3 2), ("Key", keyElem 10 5 (-10) 1 4 2)])]

theorem oneCurve_valid : ValidAnimation oneCurve := by
  constructor
  · simp [oneCurve, PTree.attr, PTree.find, PTree.children, PTree.data]
  · intro c hc ht
    simp only [oneCurve, children_node, List.mem_cons, List.not_mem_nil, or_false] at hc
    rcases hc with rfl | rfl
    · simp at ht
    · refine ⟨⟨.str "HeadYaw", ?_⟩, ⟨25, ?_, by norm_num, by norm_num⟩, ⟨"degree", ?_, by simp⟩, ?_⟩
      · simp [PTree.attr, PTree.find, PTree.children, PTree.data]
      · simp [PTree.attr, PTree.find, PTree.children, PTree.data]
      · simp [PTree.attr, PTree.find, PTree.children, PTree.data]
      · intro i p0 p3 h0 h3
        simp only [keysOf, children_node, List.filter_cons, List.filter_nil, List.map_cons,
          List.map_nil, decide_true, if_true] at h0 h3
        rw [if_neg (by simp)] at h0 h3
        match i with
        | 0 =>
          simp at h0 h3
          rw [← h0, ← h3]
          exact keyElem_valid
        | i + 1 => simp at h3

example : ValidAnimation oneCurve ∧ Actuated oneCurve :=
  ⟨oneCurve_valid, fun c hc ht => (oneCurve_valid.2 c hc ht).1⟩

/-- Valid animations have curves that can be searched. -/
theorem findCurve_spec (actuator : String) (l : List (String × PTree)) (i : ℕ)
    (h : ∀ c ∈ l, c.1 = "ActuatorCurve" → ∃ d, c.2.attr "actuator" = some d) :
    (∃ l1 c l2, l = l1 ++ c :: l2 ∧ IsCurveOf actuator c ∧ (∀ c ∈ l1, ¬ IsCurveOf actuator c) ∧
      findCurve actuator l i = .ok (some (i + l1.length))) ∨
    ((∀ c ∈ l, ¬ IsCurveOf actuator c) ∧ findCurve actuator l i = .ok none) := by
  induction l generalizing i with
  | nil => right; exact ⟨by simp, rfl⟩
  | cons c l ih =>
    have ih' := ih (i + 1) fun c hc => h c (List.mem_cons_of_mem _ hc)
    by_cases hc : IsCurveOf actuator c
    · left
      refine ⟨[], c, l, rfl, hc, by simp, ?_⟩
      unfold findCurve
      rw [if_pos hc.1, (getActuator_iff _ _).2 hc.2]
      simp
    · have hskip : findCurve actuator (c :: l) i = findCurve actuator l (i + 1) := by
        conv_lhs => unfold findCurve
        by_cases ht : c.1 = "ActuatorCurve"
        · obtain ⟨d, hd⟩ := h c (by simp) ht
          rw [if_pos ht, (getActuator_iff _ _).2 hd]
          simp only [Res.bind_ok]
          rw [if_neg]
          rintro rfl
          exact hc ⟨ht, hd⟩
        · rw [if_neg ht]
      rw [hskip]
      rcases ih' with ⟨l1, c', l2, rfl, h1, h2, h3⟩ | ⟨h1, h2⟩
      · left
        refine ⟨c :: l1, c', l2, rfl, h1, ?_, ?_⟩
        · intro x hx
          rcases List.mem_cons.1 hx with rfl | hx
          · exact hc
          · exact h2 x hx
        · rw [h3]
          simp only [List.length_cons]
          congr 2
          omega
      · right
        refine ⟨?_, h2⟩
        intro x hx
        rcases List.mem_cons.1 hx with rfl | hx
        · exact hc
        · exact h1 x hx

/-- `require_actuatorcurve` on an animation whose curves have an actuator: returns the first curve of
the actuator, the document being unchanged, or appends exactly one when there is none. -/
theorem C63_require_curve (pt : PTree) (actuator : String) (h : Actuated pt) :
    (∃ l1 c l2, pt.children = l1 ++ c :: l2 ∧ IsCurveOf actuator c ∧
      (∀ c ∈ l1, ¬ IsCurveOf actuator c) ∧ requireActuatorCurve pt actuator = (.ok l1.length, pt)) ∨
    (∃ k, (∀ c ∈ pt.children, ¬ IsCurveOf actuator c) ∧ IsCurveOf actuator ("ActuatorCurve", k) ∧
      (∀ name, name ≠ "actuator" → k.attr name = none) ∧ requireActuatorCurve pt actuator =
        (.ok pt.children.length, .node pt.data (pt.children ++ [("ActuatorCurve", k)]))) := by
  unfold requireActuatorCurve
  rcases findCurve_spec actuator pt.children 0 h with ⟨l1, c, l2, e, h1, h2, h3⟩ | ⟨h1, h2⟩
  · left
    refine ⟨l1, c, l2, e, h1, h2, ?_⟩
    rw [h3]
    simp
  · right
    refine ⟨putActuator .empty actuator, h1, ⟨rfl, attr_putAttr_same _ _ _⟩, ?_, ?_⟩
    · intro name hn
      unfold putActuator
      rw [attr_putAttr_ne _ _ hn]
      rfl
    · rw [h2]

/-- A second call returns the same curve without changing the document. -/
theorem C63_require_curve_twice (pt pt' : PTree) (actuator : String) (h : Actuated pt) (i : ℕ)
    (hr : requireActuatorCurve pt actuator = (.ok i, pt')) :
    Actuated pt' ∧ requireActuatorCurve pt' actuator = (.ok i, pt') := by
  rcases C63_require_curve pt actuator h with ⟨l1, c, l2, e, h1, h2, h3⟩ | ⟨k, h1, h2, -, h3⟩
  · rw [hr] at h3
    simp only [Prod.mk.injEq] at h3
    obtain ⟨-, rfl⟩ := h3
    exact ⟨h, hr⟩
  · rw [hr] at h3
    simp only [Prod.mk.injEq, Res.ok.injEq] at h3
    obtain ⟨rfl, rfl⟩ := h3
    have hA : Actuated (.node pt.data (pt.children ++ [("ActuatorCurve", k)])) := by
      intro c hc ht
      rw [children_node] at hc
      rcases List.mem_append.1 hc with hc | hc
      · exact h c hc ht
      · simp only [List.mem_cons, List.not_mem_nil, or_false] at hc
        subst hc
        exact ⟨_, h2.2⟩
    refine ⟨hA, ?_⟩
    rcases C63_require_curve _ actuator hA with ⟨l1, c, l2, e, g1, g2, g3⟩ | ⟨k', g1, -⟩
    · rw [g3]
      congr 2
      rw [children_node] at e
      -- the only curve of the actuator is the last child
      rcases List.append_eq_append_iff.1 e with ⟨a, e1, e2⟩ | ⟨a, e1, e2⟩
      · cases a with
        | nil => rw [e1]; simp
        | cons b a => simp at e2
      · cases a with
        | nil => rw [e1]; simp
        | cons b a =>
          exfalso
          simp only [List.cons_append, List.cons.injEq] at e2
          exact h1 c (by rw [e1, ← e2.1]; simp) g1
    · exact absurd h2 (g1 ("ActuatorCurve", k) (by rw [children_node]; simp))

/-- A curve without actuator makes `require_actuatorcurve` throw when it comes before the curve
searched; the document does not change. -/
theorem C63_require_curve_throws (pt : PTree) (actuator : String) (l1 l2 : List (String × PTree))
    (c : String × PTree) (hk : pt.children = l1 ++ c :: l2)
    (hl1 : ∀ c ∈ l1, c.1 = "ActuatorCurve" → ∃ d, c.2.attr "actuator" = some d ∧ d ≠ .str actuator)
    (hc : c.1 = "ActuatorCurve") (hbad : c.2.attr "actuator" = none) :
    requireActuatorCurve pt actuator = (.throws, pt) := by
  have : ∀ (l : List (String × PTree)) (i : ℕ),
      (∀ c ∈ l, c.1 = "ActuatorCurve" → ∃ d, c.2.attr "actuator" = some d ∧ d ≠ .str actuator) →
      findCurve actuator (l ++ c :: l2) i = .throws := by
    intro l
    induction l with
    | nil =>
      intro i _
      rw [List.nil_append]
      unfold findCurve
      rw [if_pos hc]
      simp [getActuator, hbad, mandatory]
    | cons d l ih =>
      intro i h
      have ih' := ih (i + 1) fun c hc => h c (List.mem_cons_of_mem _ hc)
      rw [List.cons_append]
      unfold findCurve
      by_cases ht : d.1 = "ActuatorCurve"
      · obtain ⟨a, ha, hne⟩ := h d (by simp) ht
        rw [if_pos ht, (getActuator_iff _ _).2 ha]
        simp only [Res.bind_ok]
        rw [if_neg hne, ih']
      · rw [if_neg ht, ih']
  unfold requireActuatorCurve
  rw [hk, this l1 0 hl1]

/-- `require_animation`: an existing animation of version 2.0 is returned and the document does not
change; one of another version makes it throw, the document being unchanged; otherwise exactly one
animation is appended, of version 2.0. -/
theorem C63_require_animation (root : PTree) :
    (∃ a, root.find "Animation" = some a ∧ a.attr "typeVersion" = some (.str "2.0") ∧
      requireAnimation root = (.ok a, root) ∧ getAnimation root = .ok a) ∨
    (∃ a, root.find "Animation" = some a ∧ a.attr "typeVersion" ≠ some (.str "2.0") ∧
      requireAnimation root = (.throws, root) ∧ getAnimation root = .throws) ∨
    (∃ a, root.find "Animation" = none ∧ getAnimation root = .throws ∧
      a.attr "typeVersion" = some (.str "2.0") ∧
      (∀ name, name ≠ "typeVersion" → a.attr name = none) ∧
      let root' : PTree := .node root.data (root.children ++ [("Animation", a)])
      requireAnimation root = (.ok a, root') ∧ getAnimation root' = .ok a ∧
      requireAnimation root' = (.ok a, root')) := by
  unfold requireAnimation getAnimation
  cases hf : root.find "Animation" with
  | some a =>
    obtain ⟨v1, v2⟩ := checkVersion_iff a
    by_cases hv : a.attr "typeVersion" = some (.str "2.0")
    · left
      refine ⟨a, rfl, hv, ?_, ?_⟩
      · simp [v2.2 hv, Res.map]
      · simp [mandatory, v2.2 hv]
    · right; left
      have ht : checkVersion a = .throws := by
        cases hc : checkVersion a with
        | ok u => cases u; exact absurd (v2.1 hc) hv
        | throws => rfl
        | ub => exact absurd hc v1
      refine ⟨a, rfl, hv, ?_, ?_⟩
      · simp [ht, Res.map]
      · simp [mandatory, ht]
  | none =>
    right; right
    have hv := attr_putAttr_same "typeVersion" (.str "2.0") .empty
    have hc := (checkVersion_iff (putAttr "typeVersion" (.str "2.0") .empty)).2.2 hv
    have hfind : (PTree.node root.data (root.children ++
        [("Animation", putAttr "typeVersion" (.str "2.0") .empty)])).find "Animation" =
        some (putAttr "typeVersion" (.str "2.0") .empty) := by
      unfold PTree.find at hf ⊢
      rw [children_node, List.find?_append]
      rw [Option.map_eq_none_iff] at hf
      rw [hf]
      simp
    refine ⟨putAttr "typeVersion" (.str "2.0") .empty, rfl, by simp [mandatory], hv, ?_, rfl, ?_, ?_⟩
    · intro name hn
      rw [attr_putAttr_ne _ _ hn]
      rfl
    · rw [hfind]; simp [mandatory, hc]
    · rw [hfind]; simp [hc, Res.map]

/-- Attributes written are read back, and the other attributes are not disturbed. -/
theorem C63_round_trip (pt : PTree) (fps : ℤ) (h0 : 0 < fps) (h1 : fps < 2 ^ 31) (mute : Bool) (unit : Unit')
    (name : String) (frame : ℤ) (g0 : 0 ≤ frame) (g1 : frame < 2 ^ 31) (value : ℝ) :
    (∃ pt', putFps pt fps = .ok pt' ∧ getFps pt' = .ok fps ∧
      ∀ n, n ≠ "fps" → pt'.attr n = pt.attr n) ∧
    (∃ pt', putFrame pt frame = .ok pt' ∧ getFrame pt' = .ok frame ∧
      ∀ n, n ≠ "frame" → pt'.attr n = pt.attr n) ∧
    (getMute (putMute pt mute) = .ok mute ∧ ∀ n, n ≠ "mute" → (putMute pt mute).attr n = pt.attr n) ∧
    (getUnit (putUnit pt unit) = .ok unit ∧ ∀ n, n ≠ "unit" → (putUnit pt unit).attr n = pt.attr n) ∧
    (getActuator (putActuator pt name) = .ok (.str name) ∧
      ∀ n, n ≠ "actuator" → (putActuator pt name).attr n = pt.attr n) ∧
    (getValue (putValue pt value) = .ok value ∧
      ∀ n, n ≠ "value" → (putValue pt value).attr n = pt.attr n) := by
  refine ⟨⟨_, ?_, (getFps_iff _ _).2 ⟨attr_putAttr_same "fps" (.num fps) pt, h0, h1⟩, fun n hn =>
      attr_putAttr_ne _ _ hn _ _⟩,
    ⟨_, ?_, (getFrame_iff _ _).2 ⟨attr_putAttr_same "frame" (.num frame) pt, g0, g1⟩, fun n hn =>
      attr_putAttr_ne _ _ hn _ _⟩, ⟨?_, fun n hn => attr_putAttr_ne _ _ hn _ _⟩,
    ⟨(getUnit_iff _ _).2 (attr_putAttr_same _ _ _), fun n hn => attr_putAttr_ne _ _ hn _ _⟩,
    ⟨(getActuator_iff _ _).2 (attr_putAttr_same _ _ _), fun n hn => attr_putAttr_ne _ _ hn _ _⟩,
    ⟨(getValue_iff _ _).2 (attr_putAttr_same _ _ _), fun n hn => attr_putAttr_ne _ _ hn _ _⟩⟩
  · unfold putFps; rw [if_neg (by omega)]
  · unfold putFrame; rw [if_neg (by omega)]
  · unfold getMute putMute
    rw [attr_putAttr_same]
    cases mute <;> simp

/-- Numbers of frames per second that are not positive are neither written nor read, and negative frames
neither. -/
theorem C63_refused (pt : PTree) (fps frame : ℤ) (h : fps ≤ 0) (g : frame < 0) :
    putFps pt fps = .throws ∧ (pt.attr "fps" = some (.num fps) → getFps pt = .throws) ∧
    putFrame pt frame = .throws ∧ (pt.attr "frame" = some (.num frame) → getFrame pt = .throws) := by
  have ne : ∀ (r : Res ℤ), (∀ x, r ≠ .ok x) → r ≠ .ub → r = .throws := fun r h1 h2 => by
    cases r
    · exact absurd rfl (h1 _)
    · rfl
    · exact absurd rfl h2
  refine ⟨if_pos h, fun e => ?_, if_pos g, fun e => ?_⟩
  · refine ne _ (fun x hx => ?_) ?_
    · obtain ⟨e2, e3, -⟩ := (getFps_iff pt x).1 hx
      rw [e] at e2
      have : (fps : ℝ) = x := by simpa using e2
      have : fps = x := by exact_mod_cast this
      omega
    · unfold getFps mandatory
      cases (pt.attr "fps").bind Data.toInt <;> simp [Res.bind]
      split <;> simp
  · refine ne _ (fun x hx => ?_) ?_
    · obtain ⟨e2, e3, -⟩ := (getFrame_iff pt x).1 hx
      rw [e] at e2
      have : (frame : ℝ) = x := by simpa using e2
      have : frame = x := by exact_mod_cast this
      omega
    · unfold getFrame mandatory
      cases (pt.attr "frame").bind Data.toInt <;> simp [Res.bind]
      split <;> simp

/-- A curve is mute exactly if its attribute says so, in letters or as the number 1. -/
theorem C63_mute (pt : PTree) :
    getMute pt = .ok true ↔ pt.attr "mute" = some (.str "true") ∨ pt.attr "mute" = some (.num 1) := by
  unfold getMute
  split
  · next h => simp [h]
  · next x h => simp [h]
  · next h1 h2 =>
    have : ¬ (pt.attr "mute" = some (.str "true") ∨ pt.attr "mute" = some (.num 1)) := by
      rintro (h | h)
      · exact h1 h
      · exact h2 1 h
    simp [this]

example : putFps .empty 0 = .throws := (C63_refused .empty 0 (-1) le_rfl (by norm_num)).1

example : getMute (putAttr "mute" (.num 1) .empty) = .ok true :=
  (C63_mute _).2 (.inr (attr_putAttr_same _ _ _))

end AlMath
