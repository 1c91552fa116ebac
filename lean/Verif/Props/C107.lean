import Verif.Props.C65
import Verif.Lemmas.Float64

/-!
C107: adapters and decorators of builders of rigid body systems.
-/

namespace AlMath

open Urdf Builder

namespace Spec

/-- The pose `q` has the numbers of `p`, converted one by one. Not in /repo: specification. -/
structure PoseBy {S T : Type} (f : S → T) (p : Pose S) (q : Pose T) : Prop where
  linear : ∀ i j, q.linear i j = f (p.linear i j)
  translation : ∀ i, q.translation i = f (p.translation i)

/-- The mass `n` has the numbers of `m`, converted one by one. Not in /repo: specification. -/
structure MassBy {S T : Type} (f : S → T) (m : BodyMass S) (n : BodyMass T) : Prop where
  mass : n.mass = f m.mass
  center : ∀ i, n.centerOfMass i = f (m.centerOfMass i)
  inertia : ∀ i j, n.rotationalInertia i j = f (m.rotationalInertia i j)

/-- The calls are the same but for the numbers, which are converted one by one. Not in /repo:
specification. -/
inductive CallBy {S T : Type} (f : S → T) : Call S → Call T → Prop
  | link (parent body joint : String) (type : JointType) (p : Pose S) (q : Pose T) (m : BodyMass S)
      (n : BodyMass T) : PoseBy f p q → MassBy f m n →
      CallBy f (.link ⟨parent, body, joint, p, type, m⟩) (.link ⟨parent, body, joint, q, type, n⟩)
  | frame (parent frame transform : String) (p : Pose S) (q : Pose T) : PoseBy f p q →
      CallBy f (.frame ⟨parent, frame, transform, p⟩) (.frame ⟨parent, frame, transform, q⟩)

/-- Two builders with the same states cannot be told apart: the same configuration, and for the same
call in the same state the same outcome and the same next state. Not in /repo: specification. -/
structure SameBuilder {σ T : Type} (a b : Interface σ T) : Prop where
  config : ∀ s, a.config s = b.config s
  perform : ∀ s c, Spec.perform a s c = Spec.perform b s c

end Spec

open Spec

/-- The call given by an adapter. Helper of the proofs. Not in /repo: specification. -/
def castCall {S T : Type} (f : S → T) : Call S → Call T
  | .link l => .link (l.cast f)
  | .frame l => .frame (l.cast f)

theorem castCall_by {S T : Type} (f : S → T) (c : Call S) : CallBy f c (castCall f c) := by
  cases c with
  | link l =>
    obtain ⟨a, b, j, p, t, m⟩ := l
    exact .link a b j t p _ m _ ⟨fun _ _ => rfl, fun _ => rfl⟩ ⟨rfl, fun _ => rfl, fun _ _ => rfl⟩
  | frame l =>
    obtain ⟨a, b, j, p⟩ := l
    exact .frame a b j p _ ⟨fun _ _ => rfl, fun _ => rfl⟩

theorem Spec.PoseBy.unique {S T : Type} {f : S → T} {p : Pose S} {q q' : Pose T} (h : PoseBy f p q)
    (h' : PoseBy f p q') : q = q' := by
  obtain ⟨l, t⟩ := q
  obtain ⟨l', t'⟩ := q'
  congr
  · funext i j
    exact (h.linear i j).trans (h'.linear i j).symm
  · funext i
    exact (h.translation i).trans (h'.translation i).symm

theorem Spec.MassBy.unique {S T : Type} {f : S → T} {p : BodyMass S} {q q' : BodyMass T} (h : MassBy f p q)
    (h' : MassBy f p q') : q = q' := by
  obtain ⟨m, c, r⟩ := q
  obtain ⟨m', c', r'⟩ := q'
  congr
  · exact h.mass.trans h'.mass.symm
  · funext i
    exact (h.center i).trans (h'.center i).symm
  · funext i j
    exact (h.inertia i j).trans (h'.inertia i j).symm

theorem callBy_iff {S T : Type} (f : S → T) (c : Call S) (d : Call T) :
    CallBy f c d ↔ d = castCall f c := by
  constructor
  · intro h
    cases h with
    | link a b j t p q m n hp hm =>
      rw [hp.unique (q' := p.cast f) ⟨fun _ _ => rfl, fun _ => rfl⟩,
        hm.unique (q' := m.cast f) ⟨rfl, fun _ => rfl, fun _ _ => rfl⟩]
      rfl
    | frame a b j p q hp =>
      rw [hp.unique (q' := p.cast f) ⟨fun _ _ => rfl, fun _ => rfl⟩]
      rfl
  · rintro rfl
    exact castCall_by f c

theorem forall₂_castCall {S T : Type} (f : S → T) (l : List (Call S)) (l' : List (Call T)) :
    List.Forall₂ (CallBy f) l l' ↔ l' = l.map (castCall f) := by
  induction l generalizing l' with
  | nil => simp
  | cons c l ih =>
    cases l' with
    | nil => simp
    | cons d l' => simp [List.forall₂_cons, ih, callBy_iff]

theorem perform_adapter {σ S T : Type} (f : S → T) (b : Interface σ T) (s : σ) (c : Call S) :
    perform (adapter f b) s c = perform b s (castCall f c) := by
  cases c <;> rfl

/-- Calls given to an adapter, whatever the wrapped builder and whatever the conversion: it is given one
call for each, with the same names and the same type of joint, and with the numbers converted one by
one. The outcome of each call is that of the wrapped builder, so that the same calls succeed and the last
state is the same. -/
theorem C107_adapter {σ S T : Type} (f : S → T) (b : Interface σ T) (s : σ) (calls : List (Call S))
    (calls' : List (Call T)) (h : List.Forall₂ (CallBy f) calls calls') :
    (performAll (adapter f b) s calls).2 = (performAll b s calls').2 ∧
    List.Forall₂ (CallBy f) (performAll (adapter f b) s calls).1 (performAll b s calls').1 := by
  rw [forall₂_castCall] at h
  subst h
  induction calls generalizing s with
  | nil => exact ⟨rfl, .nil⟩
  | cons c calls ih =>
    simp only [performAll, List.map_cons, perform_adapter]
    obtain ⟨i1, i2⟩ := ih (perform b s (castCall f c)).2
    refine ⟨i1, ?_⟩
    cases (perform b s (castCall f c)).1 with
    | ok u => exact .cons (castCall_by f c) i2
    | throws => exact i2
    | ub => exact i2

/-- For all calls there are converted calls. -/
theorem C107_adapter_total {S T : Type} (f : S → T) (calls : List (Call S)) :
    ∃! calls' : List (Call T), List.Forall₂ (CallBy f) calls calls' :=
  ⟨calls.map (castCall f), (forall₂_castCall f _ _).2 rfl, fun _ h => (forall₂_castCall f _ _).1 h⟩

/-- The short forms of `add`, called on an adapter: names that are not given are made by the wrapped
builder, and static frames are dropped when the wrapped builder wants none. -/
theorem C107_add {σ S T : Type} (f : S → T) (b : Interface σ T) (s : σ) (parent new : String)
    (p : Pose S) (q : Pose T) (hp : PoseBy f p q) (m : BodyMass S) (n : BodyMass T) (hm : MassBy f m n)
    (type : JointType) :
    (adapter f b).addUnnamed s parent new p type m =
      b.addLink s ⟨parent, new, (b.config s).jointName new, q, type, n⟩ ∧
    (adapter f b).addFrameUnnamed s parent new p =
      if (b.config s).noStaticFrame then (.ok (), s)
      else b.addStaticFrame s ⟨parent, new, (b.config s).jointName new, q⟩ := by
  rw [hp.unique (q' := p.cast f) ⟨fun _ _ => rfl, fun _ => rfl⟩,
    hm.unique (q' := m.cast f) ⟨rfl, fun _ => rfl, fun _ _ => rfl⟩]
  exact ⟨rfl, rfl⟩

/-- The order of decorators does not matter: names can be checked before or after a conversion of
numbers, and before or after inertias are erased; inertias can be erased before or after a conversion that
keeps zero. A plain decorator changes nothing. -/
theorem C107_order {σ S T : Type} [Zero S] [Zero T] (f : S → T) (h0 : f 0 = 0) (b : Interface σ T) :
    SameBuilder (adapter f (NamesChecker.interface b)) (NamesChecker.interface (adapter f b)) ∧
    SameBuilder (inertiaEraser (NamesChecker.interface b)) (NamesChecker.interface (inertiaEraser b)) ∧
    SameBuilder (adapter f (inertiaEraser b)) (inertiaEraser (adapter f b)) ∧
    SameBuilder (decorator b) b := by
  refine ⟨⟨fun _ => rfl, ?_⟩, ⟨fun _ => rfl, ?_⟩, ⟨fun _ => rfl, ?_⟩, ⟨fun _ => rfl, ?_⟩⟩
  · intro s c
    cases c <;> rfl
  · intro s c
    cases c <;> rfl
  · intro s c
    cases c with
    | link l =>
      simp only [perform, adapter, inertiaEraser, Link.cast, BodyMass.cast, Matrix.zero_apply, h0]
      rfl
    | frame l => rfl
  · intro s c
    cases c <;> rfl

/-- With builders that cannot be told apart, any calls have the same effects. -/
theorem C107_same {σ T : Type} {a b : Interface σ T} (h : SameBuilder a b) (s : σ)
    (calls : List (Call T)) : performAll a s calls = performAll b s calls ∧
      giveAll a s calls = giveAll b s calls := by
  constructor
  · induction calls generalizing s with
    | nil => rfl
    | cons c calls ih => simp only [performAll, h.perform, ih]
  · induction calls generalizing s with
    | nil => rfl
    | cons c calls ih => simp only [giveAll, h.perform, h.config, ih]

theorem checker_twice {σ T : Type} (b : Interface σ T) (k : Known) (s : σ) (c : Call T) :
    perform (NamesChecker.interface (NamesChecker.interface b)) (k, k, s) c =
      ((perform (NamesChecker.interface b) (k, s) c).1,
        (perform (NamesChecker.interface b) (k, s) c).2.1,
        (perform (NamesChecker.interface b) (k, s) c).2) := by
  cases c with
  | link l =>
    simp only [perform, NamesChecker.interface, NamesChecker.addLink]
    split_ifs <;> try rfl
    rcases b.addLink s l with ⟨r, s'⟩
    cases r <;> rfl
  | frame l =>
    simp only [perform, NamesChecker.interface, NamesChecker.addStaticFrame]
    split_ifs <;> try rfl
    rcases b.addStaticFrame s l with ⟨r, s'⟩
    cases r <;> rfl

/-- Checking names twice is the same as checking them once: the same calls succeed, with the same
effect on the wrapped builder. -/
theorem C107_checked_twice {σ T : Type} (b : Interface σ T) (s : σ) (calls : List (Call T)) :
    let once := performAll (NamesChecker.interface b) (NamesChecker.new b s) calls
    let twice := performAll (NamesChecker.interface (NamesChecker.interface b))
      (NamesChecker.new (NamesChecker.interface b) (NamesChecker.new b s)) calls
    twice.1 = once.1 ∧ twice.2.2 = once.2 := by
  have gen : ∀ (k : Known) (s : σ),
      performAll (NamesChecker.interface (NamesChecker.interface b)) (k, k, s) calls =
        ((performAll (NamesChecker.interface b) (k, s) calls).1,
          (performAll (NamesChecker.interface b) (k, s) calls).2.1,
          (performAll (NamesChecker.interface b) (k, s) calls).2) := by
    induction calls with
    | nil => intro k s; rfl
    | cons c calls ih =>
      intro k s
      simp only [performAll, checker_twice]
      rcases perform (NamesChecker.interface b) (k, s) c with ⟨r, k', s'⟩
      simp only [ih]
  have := gen (Known.init (b.config s).galileanFrame) s
  simp only [NamesChecker.new]
  constructor
  · exact congrArg Prod.fst this
  · exact congrArg (fun x => x.2.2) this

theorem giveAll_adapter {σ S T : Type} (f : S → T) (b : Interface σ T) (s : σ) (calls : List (Call S)) :
    giveAll (adapter f b) s calls = giveAll b s (calls.map (castCall f)) := by
  induction calls generalizing s with
  | nil => rfl
  | cons c calls ih =>
    have hl : (castCall f c).isLink = c.isLink := by cases c <;> rfl
    simp only [giveAll, List.map_cons, perform_adapter, hl, ih]
    rfl

/-- Building from a robot description through an adapter, whatever the conversion and whatever the
wrapped builder: it is given the calls of `C65_build` with their numbers converted, in the same order, up
to the first one that fails. -/
theorem C107_build {T : Type} (f : ℝ → T) (doc : List Elem) (t : Tree) (hl : load doc = .ok t)
    (ho : OneInertial t) (hr : Readable t) (hs : ∀ j ∈ t.joints, Supported j) (remove fix : Bool)
    (hrem : remove = true → ∃! j, j ∈ t.joints ∧ j.parent = t.root) :
    ∃ t' js cs, Prepared remove fix t t' ∧ PreOrder t' js ∧ List.Forall₂ (JointCall t') js cs ∧
      ∃ n0, ∀ n ≥ n0, ∀ (σ : Type) (b : Interface σ T) (s : σ), ∃ rs ds, RootCalls (b.config s) t' rs ∧
        List.Forall₂ (CallBy f) (rs ++ cs) ds ∧
        buildFromUrdf (adapter f b) n doc remove fix s = some (giveAll b s ds) := by
  obtain ⟨t', js, cs, h1, h2, h3, n0, h4⟩ := C65_build doc t hl ho hr hs remove fix hrem
  refine ⟨t', js, cs, h1, h2, h3, n0, fun n hn σ b s => ?_⟩
  obtain ⟨rs, h5, h6⟩ := h4 n hn σ (adapter f b) s
  refine ⟨rs, (rs ++ cs).map (castCall f), h5, (forall₂_castCall f _ _).2 rfl, ?_⟩
  rw [h6, giveAll_adapter]

/-- The conversion from `double` to `float`: the value is kept when the format has it; it changes by at
most one part in `2 ^ 24`, or by `2 ^ -150` near zero; it is infinite from `2 ^ 128` on; NaN and
infinities are kept. -/
theorem C107_toFloat (x : ℝ) :
    (F32.Rep x → F64.toFloat (.fin x) = .fin x) ∧
    (|x| ≤ 2 ^ 127 → ∃ y, F64.toFloat (.fin x) = .fin y ∧ F32.Rep y ∧
      |y - x| ≤ 2 ^ (-24 : ℤ) * |x| + 2 ^ (-150 : ℤ)) ∧
    (2 ^ 128 ≤ x → F64.toFloat (.fin x) = .pinf) ∧
    F64.toFloat .nan = .nan ∧ F64.toFloat .pinf = .pinf ∧ F64.toFloat .ninf = .ninf := by
  refine ⟨fun h => F32.round_rep h, fun h => ⟨F32.rnd x, F32.round_fin h, ?_, F32.rnd_gen x⟩,
    fun h => F32.round_pinf h, rfl, rfl, rfl⟩
  exact F32.grid_rep (F32.rnd_grid x) (F32.rnd_lt_of_abs_le h)

/-- A call whose numbers are all `float` values. Not in /repo: specification. -/
def Spec.FloatCall : Call F32 → Prop
  | .link l => (∀ i j, (l.poseParentNew.linear i j).Valid) ∧ (∀ i, (l.poseParentNew.translation i).Valid) ∧
      l.bodyMass.mass.Valid ∧ (∀ i, (l.bodyMass.centerOfMass i).Valid) ∧
      ∀ i j, (l.bodyMass.rotationalInertia i j).Valid
  | .frame l => (∀ i j, (l.poseParentNew.linear i j).Valid) ∧ ∀ i, (l.poseParentNew.translation i).Valid

theorem toFloat_valid {x : F32} (h : x.Valid) : F64.toFloat x = x := by
  cases x with
  | fin x => exact F32.round_rep h
  | nan => rfl
  | pinf => rfl
  | ninf => rfl

/-- Values of type `float` that go through a builder of `double` on their way to a builder of `float`
are not changed: the two adapters together do nothing. (A `float` is converted to `double` without
change.) -/
theorem C107_round_trip {σ : Type} (b : Interface σ F32) (s : σ) (c : Call F32) (h : FloatCall c) :
    perform (adapter (fun x : F32 => (x : F64)) (adapter F64.toFloat b)) s c = perform b s c := by
  cases c with
  | link l =>
    obtain ⟨h1, h2, h3, h4, h5⟩ := h
    obtain ⟨a, b', j, ⟨pl, pt⟩, t, ⟨m, c, r⟩⟩ := l
    simp only [perform, adapter, Link.cast, Pose.cast, BodyMass.cast, toFloat_valid (h1 _ _),
      toFloat_valid (h2 _), toFloat_valid h3, toFloat_valid (h4 _), toFloat_valid (h5 _ _)]
  | frame l =>
    obtain ⟨h1, h2⟩ := h
    obtain ⟨a, b', j, ⟨pl, pt⟩⟩ := l
    simp only [perform, adapter, StaticFrame.cast, Pose.cast, toFloat_valid (h1 _ _),
      toFloat_valid (h2 _)]

/-- The inertia of a thin rod. Helper of the proofs. Not in /repo: specification. -/
noncomputable def rodInertia : Matrix (Fin 3) (Fin 3) ℝ :=
  let s : ℝ := 1 + 2 ^ (-23 : ℤ)
  !![1, s, 0; s, s * s, 0; 0, 0, 1 + s * s]

theorem rnd_rod : F32.rnd ((1 + 2 ^ (-23 : ℤ)) * (1 + 2 ^ (-23 : ℤ))) = 1 + 2 ^ (-22 : ℤ) := by
  have h1 : Int.log 2 |((1 + 2 ^ (-23 : ℤ)) * (1 + 2 ^ (-23 : ℤ)) : ℝ)| = 0 := by
    rw [abs_of_pos (by positivity)]
    refine le_antisymm ?_ ?_
    · have := (Int.lt_zpow_iff_log_lt (b := 2) (x := (0 : ℤ) + 1) (by norm_num)
        (show (0 : ℝ) < (1 + 2 ^ (-23 : ℤ)) * (1 + 2 ^ (-23 : ℤ)) by positivity)).1 (by norm_num)
      omega
    · exact (Int.zpow_le_iff_le_log (b := 2) (by norm_num)
        (show (0 : ℝ) < (1 + 2 ^ (-23 : ℤ)) * (1 + 2 ^ (-23 : ℤ)) by positivity)).1 (by norm_num)
  have h2 : F32.lastBit ((1 + 2 ^ (-23 : ℤ)) * (1 + 2 ^ (-23 : ℤ))) = -23 := by
    unfold F32.lastBit
    rw [h1]
    norm_num
  unfold F32.rnd
  rw [h2]
  have h3 : F32.nearestInt ((1 + 2 ^ (-23 : ℤ)) * (1 + 2 ^ (-23 : ℤ)) / 2 ^ (-23 : ℤ)) = 2 ^ 23 + 2 := by
    have hf : ⌊((1 + 2 ^ (-23 : ℤ)) * (1 + 2 ^ (-23 : ℤ)) / 2 ^ (-23 : ℤ) : ℝ)⌋ = 2 ^ 23 + 2 := by
      rw [Int.floor_eq_iff]
      norm_num
    unfold F32.nearestInt
    rw [if_pos, hf]
    unfold Int.fract
    rw [hf]
    norm_num
  rw [h3]
  norm_num

/-- Conversion of an inertia to `float`: it stays symmetric. That of a thin rod in a skew direction, a
physical one (no direction has a negative moment of inertia), becomes one with a negative moment of
inertia in some direction. -/
theorem C107_inertia :
    (∀ (m : BodyMass) (n : BodyMass F32), MassBy F32.round m n → m.rotationalInertia.IsSymm →
      n.rotationalInertia.IsSymm) ∧
    (∀ v : Fin 3 → ℝ, 0 ≤ v ⬝ᵥ rodInertia.mulVec v) ∧
    ∃ J : Matrix (Fin 3) (Fin 3) ℝ, (∀ i j, F64.toFloat (.fin (rodInertia i j)) = .fin (J i j)) ∧
      ∃ v : Fin 3 → ℝ, v ⬝ᵥ J.mulVec v < 0 := by
  refine ⟨fun m n h hm => ?_, fun v => ?_, ?_⟩
  · ext i j
    rw [Matrix.transpose_apply, h.inertia, h.inertia, hm.apply]
  · simp only [rodInertia, Matrix.mulVec, dotProduct, Fin.sum_univ_three, Matrix.cons_val', Matrix.cons_val_zero,
      Matrix.cons_val_one, Matrix.cons_val, Matrix.of_apply]
    set s : ℝ := 1 + 2 ^ (-23 : ℤ)
    nlinarith [sq_nonneg (v 0 + s * v 1), mul_nonneg (show 0 ≤ 1 + s * s by positivity) (sq_nonneg (v 2))]
  · refine ⟨fun i j => F32.rnd (rodInertia i j), fun i j => ?_, ?_⟩
    · refine F32.round_fin ?_
      fin_cases i <;> fin_cases j <;> norm_num [rodInertia]
    · have e1 : F32.rnd 1 = 1 := F32.rnd_of_grid F32.Rep.one.grid
      have e2 : F32.rnd (1 + 2 ^ (-23 : ℤ)) = 1 + 2 ^ (-23 : ℤ) :=
        F32.rnd_of_grid (F32.Rep.grid ⟨2 ^ 23 + 1, -23, by norm_num, by norm_num, by norm_num, by norm_num⟩)
      refine ⟨![1 + 2 ^ (-23 : ℤ), -1, 0], ?_⟩
      simp only [rodInertia, Matrix.mulVec, dotProduct, Fin.sum_univ_three, Matrix.cons_val', Matrix.cons_val_zero,
        Matrix.cons_val_one, Matrix.cons_val, Matrix.of_apply, rnd_rod, e1, e2, F32.rnd_zero]
      norm_num

/-- The hypotheses of `C107_build`: the description of a leg. -/
example : ∃ t, load (legDoc true false) = .ok t ∧ OneInertial t ∧ Readable t ∧ ∀ j ∈ t.joints, Supported j :=
  (C65_moving_on_fixed false).1

/-- The hypothesis of `C107_adapter` and `C107_build`: the converted call. -/
example : CallBy (S := ℝ) (T := ℤ) Int.floor (.link ⟨"a", "b", "j", ⟨1, fun _ => 7 / 3⟩, .ry, ⟨2, fun _ => 1 / 3, 1⟩⟩)
    (.link ⟨"a", "b", "j", ⟨1, fun _ => 2⟩, .ry, ⟨2, fun _ => 0, 1⟩⟩) := by
  refine .link _ _ _ _ _ _ _ _ ⟨fun i j => ?_, fun i => ?_⟩ ⟨?_, fun i => ?_, fun i j => ?_⟩
  · by_cases h : i = j <;> simp [Matrix.one_apply, h]
  · simp only [eq_comm, Int.floor_eq_iff]; norm_num
  · simp
  · simp only [eq_comm, Int.floor_eq_iff]; norm_num
  · by_cases h : i = j <;> simp [Matrix.one_apply, h]

/-- The call is given converted to a builder of integers that records the translations. -/
example : (perform (adapter (Int.floor : ℝ → ℤ) (⟨fun _ => ⟨false, id, ""⟩,
      fun s l => (.ok (), s ++ [l.poseParentNew.translation 0]), fun s _ => (.throws, s)⟩ :
        Interface (List ℤ) ℤ)) []
    (.link ⟨"a", "b", "j", ⟨1, fun _ => 7 / 3⟩, .ry, ⟨2, fun _ => 1 / 3, 1⟩⟩)) = (.ok (), [2]) := by
  have : ⌊(7 / 3 : ℝ)⌋ = 2 := by rw [Int.floor_eq_iff]; norm_num
  simp [perform, adapter, Link.cast, Pose.cast, this]

/-- The hypothesis of `C107_order`: rounding down keeps zero. -/
example : (Int.floor : ℝ → ℤ) 0 = 0 := Int.floor_zero

/-- The hypothesis of `C107_round_trip`. -/
example : FloatCall (.frame ⟨"a", "f", "t", ⟨fun _ _ => .fin 1, fun _ => .pinf⟩⟩) :=
  ⟨fun _ _ => F32.Rep.one, fun _ => trivial⟩

end AlMath
