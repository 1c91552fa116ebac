import Verif.Model.UrdfAccess

/-!
C73: what the wrappers around the elements of a robot description read.
-/

namespace AlMath.UrdfXml

open AlMath.Urdf

namespace Spec

/-- `c` is the first child of `n` with this key. Not in /repo: specification. -/
def First (k : String) (n c : Node) : Prop :=
  ∃ l1 l2, n.children = l1 ++ (k, c) :: l2 ∧ ∀ x ∈ l1, x.1 ≠ k

/-- `c` is reached from `n` by going to the first child with each key in turn. Not in /repo:
specification. -/
def At : List String → Node → Node → Prop
  | [], n, c => n = c
  | k :: p, n, c => ∃ m, First k n m ∧ At p m c

/-- The number that can be read there. Not in /repo: specification. -/
def NumAt (p : List String) (n : Node) (x : ℝ) : Prop := ∃ c, At p n c ∧ c.text.num = some x

/-- The array that can be read there. Not in /repo: specification. -/
def VecAt (p : List String) (n : Node) (a : Array3d) : Prop := ∃ c, At p n c ∧ c.text.vec = some a

/-- The text that is there. Not in /repo: specification. -/
def StrAt (p : List String) (n : Node) (s : String) : Prop := ∃ c, At p n c ∧ c.text.str = s

/-- The names of the types of joints in the URDF format. Not in /repo: specification. -/
def jtypeName : JType → String
  | .revolute => "revolute"
  | .continuous => "continuous"
  | .prismatic => "prismatic"
  | .fixed => "fixed"
  | .floating => "floating"
  | .planar => "planar"

end Spec

open Spec

theorem find_iff_first {k : String} {n c : Node} : n.find k = some c ↔ First k n c := by
  unfold Node.find First
  constructor
  · intro h
    obtain ⟨⟨k', c'⟩, h1, rfl⟩ := Option.map_eq_some_iff.1 h
    obtain ⟨hk, l1, l2, e, h2⟩ := List.find?_eq_some_iff_append.1 h1
    have hk' : k' = k := by simpa using hk
    subst hk'
    exact ⟨l1, l2, e, fun x hx => by simpa using h2 x hx⟩
  · rintro ⟨l1, l2, e, h⟩
    rw [Option.map_eq_some_iff]
    refine ⟨(k, c), List.find?_eq_some_iff_append.2 ⟨by simp, l1, l2, e, fun x hx => ?_⟩, rfl⟩
    simpa using h x hx

theorem get_iff_at {p : List String} {n c : Node} : n.get p = some c ↔ At p n c := by
  induction p generalizing n with
  | nil => simp [Node.get, At]
  | cons k p ih =>
    rw [Node.get, At]
    cases hf : n.find k with
    | none =>
      simp only [reduceCtorEq, false_iff, not_exists, not_and]
      intro m hm
      rw [find_iff_first.2 hm] at hf
      simp at hf
    | some m =>
      simp only
      rw [ih]
      constructor
      · exact fun h => ⟨m, find_iff_first.1 hf, h⟩
      · rintro ⟨m', hm', h⟩
        rw [find_iff_first.2 hm', Option.some.injEq] at hf
        exact hf ▸ h

theorem getNum_iff {p : List String} {n : Node} {x : ℝ} : n.getNum p = some x ↔ NumAt p n x := by
  simp only [Node.getNum, Option.bind_eq_some_iff, get_iff_at, NumAt]

theorem getVec_iff {p : List String} {n : Node} {x : Array3d} : n.getVec p = some x ↔ VecAt p n x := by
  simp only [Node.getVec, Option.bind_eq_some_iff, get_iff_at, VecAt]

theorem getStr_iff {p : List String} {n : Node} {x : String} : n.getStr p = some x ↔ StrAt p n x := by
  simp only [Node.getStr, Option.map_eq_some_iff, get_iff_at, StrAt]

theorem getNum_none {p : List String} {n : Node} : n.getNum p = none ↔ ¬ ∃ x, NumAt p n x := by
  rw [Option.eq_none_iff_forall_ne_some, not_exists]
  exact forall_congr' fun x => not_congr getNum_iff

theorem getVec_none {p : List String} {n : Node} : n.getVec p = none ↔ ¬ ∃ x, VecAt p n x := by
  rw [Option.eq_none_iff_forall_ne_some, not_exists]
  exact forall_congr' fun x => not_congr getVec_iff

theorem getVec_getD {p : List String} {n : Node} {a d : Array3d} :
    (n.getVec p).getD d = a ↔ VecAt p n a ∨ ((¬ ∃ x, VecAt p n x) ∧ a = d) := by
  rw [← getVec_iff, ← getVec_none]
  cases n.getVec p <;> simp [eq_comm]

theorem getNum_getD {p : List String} {n : Node} {a d : ℝ} :
    (n.getNum p).getD d = a ↔ NumAt p n a ∨ ((¬ ∃ x, NumAt p n x) ∧ a = d) := by
  rw [← getNum_iff, ← getNum_none]
  cases n.getNum p <;> simp [eq_comm]

/-- The limits of a joint: none when neither can be read, otherwise both, the one that cannot be read
being 0. -/
theorem C73_limits (n : Node) :
    (Joint.limitLowerUpper n = none ↔ (¬ ∃ x, NumAt ["limit", "<xmlattr>", "lower"] n x) ∧
      ¬ ∃ x, NumAt ["limit", "<xmlattr>", "upper"] n x) ∧
    ∀ l u, Joint.limitLowerUpper n = some (l, u) ↔
      ((∃ x, NumAt ["limit", "<xmlattr>", "lower"] n x) ∨
        ∃ x, NumAt ["limit", "<xmlattr>", "upper"] n x) ∧
      (NumAt ["limit", "<xmlattr>", "lower"] n l ∨
        ((¬ ∃ x, NumAt ["limit", "<xmlattr>", "lower"] n x) ∧ l = 0)) ∧
      (NumAt ["limit", "<xmlattr>", "upper"] n u ∨
        ((¬ ∃ x, NumAt ["limit", "<xmlattr>", "upper"] n x) ∧ u = 0)) := by
  have h1 : (∃ x, NumAt ["limit", "<xmlattr>", "lower"] n x) ↔
      ¬ n.getNum ["limit", "<xmlattr>", "lower"] = none := by rw [getNum_none, not_not]
  have h2 : (∃ x, NumAt ["limit", "<xmlattr>", "upper"] n x) ↔
      ¬ n.getNum ["limit", "<xmlattr>", "upper"] = none := by rw [getNum_none, not_not]
  refine ⟨?_, fun l u => ?_⟩
  · rw [h1, h2, not_not, not_not]
    unfold Joint.limitLowerUpper
    cases n.getNum ["limit", "<xmlattr>", "lower"] <;> cases n.getNum ["limit", "<xmlattr>", "upper"] <;>
      simp
  · rw [← getNum_getD, ← getNum_getD, h1, h2]
    unfold Joint.limitLowerUpper
    cases n.getNum ["limit", "<xmlattr>", "lower"] <;> cases n.getNum ["limit", "<xmlattr>", "upper"] <;>
      simp

/-- The effort and the velocity of a joint, when they can be read. -/
theorem C73_effort_velocity (n : Node) (x : ℝ) :
    (Joint.limitEffort n = some x ↔ NumAt ["limit", "<xmlattr>", "effort"] n x) ∧
    (Joint.limitVelocity n = some x ↔ NumAt ["limit", "<xmlattr>", "velocity"] n x) :=
  ⟨getNum_iff, getNum_iff⟩

/-- The axis of a joint: (1, 0, 0) when it cannot be read. -/
theorem C73_axis (n : Node) (a : Array3d) : Joint.axis n = a ↔
    VecAt ["axis", "<xmlattr>", "xyz"] n a ∨
      ((¬ ∃ x, VecAt ["axis", "<xmlattr>", "xyz"] n x) ∧ a = ![1, 0, 0]) := getVec_getD

/-- The scale of a mesh: (1, 1, 1) when it cannot be read. -/
theorem C73_scale (n : Node) (a : Array3d) : meshScale n = a ↔
    VecAt ["<xmlattr>", "scale"] n a ∨ ((¬ ∃ x, VecAt ["<xmlattr>", "scale"] n x) ∧ a = ![1, 1, 1]) :=
  getVec_getD

theorem withDefault {p : List String} {n : Node} {d : ℝ} {r : Res ℝ}
    (hr : r = match n.get p with
      | some c => mandatory c.text.num
      | none => .ok d) :
    (∀ x, r = .ok x ↔ NumAt p n x ∨ ((¬ ∃ c, At p n c) ∧ x = d)) ∧
    (r = .throws ↔ (∃ c, At p n c) ∧ ¬ ∃ x, NumAt p n x) := by
  subst hr
  cases hg : n.get p with
  | none =>
    have h0 : ¬ ∃ c, At p n c := by
      rintro ⟨c, hc⟩
      rw [get_iff_at.2 hc] at hg
      simp at hg
    have h1 : ∀ x, ¬ NumAt p n x := fun x ⟨c, hc, _⟩ => h0 ⟨c, hc⟩
    simp [h0, h1, eq_comm]
  | some c =>
    have hc := get_iff_at.1 hg
    have hu : ∀ c', At p n c' → c' = c := fun c' h => by
      rw [← get_iff_at, hg, Option.some.injEq] at h
      exact h.symm
    have h1 : ∀ x, NumAt p n x ↔ c.text.num = some x := fun x =>
      ⟨fun ⟨c', h, e⟩ => hu c' h ▸ e, fun e => ⟨c, hc, e⟩⟩
    have h2 : ∃ c, At p n c := ⟨c, hc⟩
    simp only [h1, h2, not_true_eq_false, false_and, or_false, true_and]
    cases c.text.num <;> simp [mandatory]

/-- The multiplier of a mimicked joint: 1 when the attribute is missing, an exception when it is not
a number. -/
theorem C73_multiplier (n : Node) :
    (∀ x, Mimic.multiplier n = .ok x ↔ NumAt ["<xmlattr>", "multiplier"] n x ∨
      ((¬ ∃ c, At ["<xmlattr>", "multiplier"] n c) ∧ x = 1)) ∧
    (Mimic.multiplier n = .throws ↔ (∃ c, At ["<xmlattr>", "multiplier"] n c) ∧
      ¬ ∃ x, NumAt ["<xmlattr>", "multiplier"] n x) := withDefault rfl

/-- The offset of a mimicked joint: 0 when the attribute is missing, an exception when it is not
a number. -/
theorem C73_offset (n : Node) :
    (∀ x, Mimic.offset n = .ok x ↔ NumAt ["<xmlattr>", "offset"] n x ∨
      ((¬ ∃ c, At ["<xmlattr>", "offset"] n c) ∧ x = 0)) ∧
    (Mimic.offset n = .throws ↔ (∃ c, At ["<xmlattr>", "offset"] n c) ∧
      ¬ ∃ x, NumAt ["<xmlattr>", "offset"] n x) := withDefault rfl

/-- An attribute that is present but is not a number is an exception for a multiplier, and is taken for
a missing one for a limit, an axis or a scale. -/
theorem C73_unreadable (n : Node) :
    ((∃ c, At ["<xmlattr>", "multiplier"] n c ∧ c.text.num = none) → Mimic.multiplier n = .throws) ∧
    ((∃ c, At ["limit", "<xmlattr>", "lower"] n c ∧ c.text.num = none) →
      (∀ l u, Joint.limitLowerUpper n = some (l, u) → l = 0) ∧
      ∀ x, NumAt ["limit", "<xmlattr>", "upper"] n x → Joint.limitLowerUpper n = some (0, x)) ∧
    ((∃ c, At ["axis", "<xmlattr>", "xyz"] n c ∧ c.text.vec = none) → Joint.axis n = ![1, 0, 0]) ∧
    ((∃ c, At ["<xmlattr>", "scale"] n c ∧ c.text.vec = none) → meshScale n = ![1, 1, 1]) := by
  have huniq : ∀ {p : List String} {c c' : Node}, At p n c → At p n c' → c = c' := by
    intro p c c' h h'
    rw [← get_iff_at] at h h'
    rw [h, Option.some.injEq] at h'
    exact h'
  refine ⟨?_, ?_, ?_, ?_⟩
  · rintro ⟨c, hc, e⟩
    refine (C73_multiplier n).2.2 ⟨⟨c, hc⟩, ?_⟩
    rintro ⟨x, c', hc', e'⟩
    rw [huniq hc' hc, e] at e'
    simp at e'
  · rintro ⟨c, hc, e⟩
    have hno : ¬ ∃ x, NumAt ["limit", "<xmlattr>", "lower"] n x := by
      rintro ⟨x, c', hc', e'⟩
      rw [huniq hc' hc, e] at e'
      simp at e'
    refine ⟨fun l u h => ?_, fun x hx => ((C73_limits n).2 0 x).2 ⟨.inr ⟨x, hx⟩, .inr ⟨hno, rfl⟩, .inl hx⟩⟩
    obtain ⟨-, h | h, -⟩ := ((C73_limits n).2 l u).1 h
    · exact absurd ⟨l, h⟩ hno
    · exact h.2
  · rintro ⟨c, hc, e⟩
    refine (C73_axis n _).2 (.inr ⟨?_, rfl⟩)
    rintro ⟨x, c', hc', e'⟩
    rw [huniq hc' hc, e] at e'
    simp at e'
  · rintro ⟨c, hc, e⟩
    refine (C73_scale n _).2 (.inr ⟨?_, rfl⟩)
    rintro ⟨x, c', hc', e'⟩
    rw [huniq hc' hc, e] at e'
    simp at e'

theorem typeOfString_iff (s : String) (ty : JType) : Node.typeOfString s = some ty ↔ s = jtypeName ty := by
  constructor
  · unfold Node.typeOfString
    intro h
    split_ifs at h with h1 h2 h3 h4 h5 h6 <;> simp at h <;> subst h <;> assumption
  · rintro rfl
    cases ty <;> rfl

/-- The type of a joint is one of the six names, anything else is an exception. -/
theorem C73_type (n : Node) :
    (∀ ty, Joint.type n = .ok ty ↔ StrAt ["<xmlattr>", "type"] n (jtypeName ty)) ∧
    (Joint.type n = .throws ↔ ∀ ty, ¬ StrAt ["<xmlattr>", "type"] n (jtypeName ty)) := by
  have h : ∀ ty, n.type = some ty ↔ StrAt ["<xmlattr>", "type"] n (jtypeName ty) := by
    intro ty
    rw [Node.type, Option.bind_eq_some_iff]
    constructor
    · rintro ⟨s, h1, h2⟩
      rw [typeOfString_iff] at h2
      rw [← h2]
      exact getStr_iff.1 h1
    · exact fun h => ⟨_, getStr_iff.2 h, (typeOfString_iff _ _).2 rfl⟩
  constructor
  · intro ty
    rw [← h ty, Joint.type]
    cases n.type <;> simp [mandatory]
  · simp only [← h, Joint.type]
    cases n.type <;> simp [mandatory]

/-- The numbers and texts without default value: an exception when they cannot be read. -/
theorem C73_mandatory (n : Node) :
    (∀ x, Mimic.joint n = .ok x ↔ StrAt ["<xmlattr>", "joint"] n x) ∧
    (∀ x, Joint.name n = .ok x ↔ StrAt ["<xmlattr>", "name"] n x) ∧
    (∀ x, Joint.parentLink n = .ok x ↔ StrAt ["parent", "<xmlattr>", "link"] n x) ∧
    (∀ x, Joint.childLink n = .ok x ↔ StrAt ["child", "<xmlattr>", "link"] n x) ∧
    (∀ x, boxSize n = .ok x ↔ VecAt ["<xmlattr>", "size"] n x) ∧
    (∀ x, radius n = .ok x ↔ NumAt ["<xmlattr>", "radius"] n x) ∧
    (∀ x, cylinderLength n = .ok x ↔ NumAt ["<xmlattr>", "length"] n x) ∧
    (∀ x, meshFilename n = .ok x ↔ StrAt ["<xmlattr>", "filename"] n x) ∧
    Mimic.joint n ≠ .ub ∧ Joint.name n ≠ .ub ∧ Joint.parentLink n ≠ .ub ∧ Joint.childLink n ≠ .ub ∧
    boxSize n ≠ .ub ∧ radius n ≠ .ub ∧ cylinderLength n ≠ .ub ∧ meshFilename n ≠ .ub := by
  have key : ∀ {α : Type} (o : Option α) (x : α), mandatory o = .ok x ↔ o = some x := by
    intro α o x
    cases o <;> simp [mandatory]
  have key' : ∀ {α : Type} (o : Option α), mandatory o ≠ .ub := by
    intro α o
    cases o <;> simp [mandatory]
  refine ⟨fun x => ?_, fun x => ?_, fun x => ?_, fun x => ?_, fun x => ?_, fun x => ?_, fun x => ?_,
    fun x => ?_, key' _, key' _, key' _, key' _, key' _, key' _, key' _, key' _⟩
  · exact (key _ _).trans getStr_iff
  · exact (key _ _).trans getStr_iff
  · exact (key _ _).trans getStr_iff
  · exact (key _ _).trans getStr_iff
  · exact (key _ _).trans getVec_iff
  · exact (key _ _).trans getNum_iff
  · exact (key _ _).trans getNum_iff
  · exact (key _ _).trans getStr_iff

/-- The children a wrapper gives: the first `mimic` of a joint, the first `inertial` of a link, and its
`visual` children in the order of the document, all of them. -/
theorem C73_children (n : Node) :
    (∀ c, Joint.mimic n = some c ↔ First "mimic" n c) ∧
    (∀ c, linkInertial n = some c ↔ First "inertial" n c) ∧
    ((linkVisuals n).map fun v => ("visual", v)).Sublist n.children ∧
    ∀ l : List Node, (l.map fun v => ("visual", v)).Sublist n.children → l.Sublist (linkVisuals n) := by
  refine ⟨fun c => ?_, fun c => ?_, ?_, fun l hl => ?_⟩
  · rw [Joint.mimic, get_iff_at, At]
    simp [At]
  · rw [linkInertial, get_iff_at, At]
    simp [At]
  · rw [linkVisuals, List.map_map]
    have : (n.children.filter fun c => decide (c.1 = "visual")).map ((fun v => ("visual", v)) ∘ Prod.snd) =
        n.children.filter fun c => decide (c.1 = "visual") := by
      conv_rhs => rw [← List.map_id (n.children.filter fun c => decide (c.1 = "visual"))]
      refine List.map_congr_left fun x hx => ?_
      rw [List.mem_filter, decide_eq_true_eq] at hx
      exact Prod.ext hx.2.symm rfl
    rw [this]
    exact List.filter_sublist
  · have h := (hl.filter fun c => decide (c.1 = "visual")).map Prod.snd
    rw [List.filter_eq_self.2 (by simp), List.map_map] at h
    simpa [Function.comp_def, linkVisuals] using h

/-- The shape of a visual: the first `box` of its first `geometry`, failing that the first `cylinder`, then
`sphere`, then `mesh`, whatever their order in the document; an exception without geometry or
shape. -/
theorem C73_geometry (n : Node) :
    (∀ c, geometry n = .ok (.box c) ↔ ∃ g, First "geometry" n g ∧ First "box" g c) ∧
    (∀ c, geometry n = .ok (.cylinder c) ↔ ∃ g, First "geometry" n g ∧ First "cylinder" g c ∧
      ∀ x ∈ g.children, x.1 ≠ "box") ∧
    (∀ c, geometry n = .ok (.sphere c) ↔ ∃ g, First "geometry" n g ∧ First "sphere" g c ∧
      ∀ x ∈ g.children, x.1 ≠ "box" ∧ x.1 ≠ "cylinder") ∧
    (∀ c, geometry n = .ok (.mesh c) ↔ ∃ g, First "geometry" n g ∧ First "mesh" g c ∧
      ∀ x ∈ g.children, x.1 ≠ "box" ∧ x.1 ≠ "cylinder" ∧ x.1 ≠ "sphere") ∧
    (geometry n = .throws ↔ (∀ x ∈ n.children, x.1 ≠ "geometry") ∨ ∃ g, First "geometry" n g ∧
      ∀ x ∈ g.children, x.1 ≠ "box" ∧ x.1 ≠ "cylinder" ∧ x.1 ≠ "sphere" ∧ x.1 ≠ "mesh") := by
  have h1 : ∀ (k : String) (m : Node), m.get [k] = m.find k := by
    intro k m
    cases h : m.find k <;> simp [Node.get, h]
  have hn : ∀ (k : String) (m : Node), m.find k = none ↔ ∀ x ∈ m.children, x.1 ≠ k := by
    intro k m
    simp [Node.find]
  have hf : ∀ (k : String) (m c : Node), First k m c ↔ m.find k = some c := fun k m c =>
    find_iff_first.symm
  unfold geometry
  simp only [h1, hf, forall_and, ← hn]
  cases n.find "geometry" with
  | none => simp
  | some g =>
    simp only [Option.some.injEq, exists_eq_left']
    cases g.find "box" <;> cases g.find "cylinder" <;> cases g.find "sphere" <;> cases g.find "mesh" <;>
      simp

/-- What `is_zero` and `is_ones` tell. -/
theorem C73_ones (a : Array3d) : (isZero a ↔ a = ![0, 0, 0]) ∧ (isOnes a ↔ a = ![1, 1, 1]) := by
  constructor
  · constructor
    · intro h
      funext i
      fin_cases i
      exacts [h.1, h.2.1, h.2.2]
    · rintro rfl
      simp [isZero]
  · constructor
    · intro h
      funext i
      fin_cases i
      exacts [h.1, h.2.1, h.2.2]
    · rintro rfl
      simp [isOnes]

/-! ### Examples -/

/-- An attribute. Helper of the examples. Not in /repo: specification. -/
def attrOf (k : String) (t : Text) : String × Node := (k, ⟨t, []⟩)

/-- A joint with a limit. Helper of the examples. Not in /repo: specification. -/
def limited (l : Nodes) : Node :=
  ⟨Text.ofStr "", [("limit", ⟨Text.ofStr "", [("<xmlattr>", ⟨Text.ofStr "", l⟩)]⟩)]⟩

/-- A joint whose lower limit is misspelt gets 0 for it. -/
example : Joint.limitLowerUpper (limited [attrOf "lower" ⟨"-1,5", none, none⟩, attrOf "upper" ⟨"1.5", some 1.5, none⟩]) =
    some (0, 1.5) :=
  (C73_unreadable _).2.1 ⟨_, get_iff_at.1 rfl, rfl⟩ |>.2 1.5 ⟨_, get_iff_at.1 rfl, rfl⟩

example : Joint.limitLowerUpper (limited [attrOf "effort" ⟨"3", some 3, none⟩]) = none ∧
    Joint.limitEffort (limited [attrOf "effort" ⟨"3", some 3, none⟩]) = some 3 := ⟨rfl, rfl⟩

/-- A visual with a mesh, then a box: the box. -/
example (m b : Node) : geometry ⟨Text.ofStr "", [("origin", Node.empty),
    ("geometry", ⟨Text.ofStr "", [("mesh", m), ("box", b)]⟩)]⟩ = .ok (.box b) :=
  ((C73_geometry _).1 b).2 ⟨_, find_iff_first.1 rfl, find_iff_first.1 rfl⟩

example : Joint.type ⟨Text.ofStr "", [("<xmlattr>", ⟨Text.ofStr "", [attrOf "type" (.ofStr "planar")]⟩)]⟩ =
    .ok .planar ∧
    Joint.type ⟨Text.ofStr "", [("<xmlattr>", ⟨Text.ofStr "", [attrOf "type" (.ofStr "screw")]⟩)]⟩ =
    .throws := ⟨rfl, rfl⟩

/-- A mimicked joint with an offset and no multiplier. -/
example : Mimic.multiplier ⟨Text.ofStr "", [("<xmlattr>", ⟨Text.ofStr "", [attrOf "offset" ⟨"2", some 2, none⟩]⟩)]⟩ =
    .ok 1 ∧
    Mimic.offset ⟨Text.ofStr "", [("<xmlattr>", ⟨Text.ofStr "", [attrOf "offset" ⟨"2", some 2, none⟩]⟩)]⟩ =
    .ok 2 := ⟨rfl, rfl⟩

example (v w : Node) : linkVisuals ⟨Text.ofStr "", [("visual", v), ("inertial", Node.empty), ("visual", w)]⟩ =
    [v, w] := rfl

end AlMath.UrdfXml
