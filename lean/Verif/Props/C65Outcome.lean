import Verif.Props.C65

/-!
C65, continued: what becomes of the descriptions that the construction does not accept.
-/

namespace AlMath

open Urdf Builder
open scoped Matrix

namespace Spec

/-- What the traversal does at a joint. Not in /repo: specification. -/
inductive Step where
  | give (c : Call)
  | skip
  | refuse

/-- One of the numbers of the origin cannot be read. Not in /repo: specification. -/
def BadOrigin (o : Option OriginElem) : Prop :=
  ∃ e, o = some e ∧ (e.xyz = .bad ∨ e.rpy = .bad)

/-- The joint cannot be given to a builder: it moves in an unsupported way, or one of the poses it needs
cannot be read. Not in /repo: specification. -/
def Refused (t : Tree) (j : UJoint) : Prop :=
  ¬ Supported j ∨ BadOrigin j.origin ∨
    (j.type ≠ some .fixed ∧ ∃ l ∈ t.links, l.name = j.child ∧
      ∃ i rest, l.inertials = i :: rest ∧ BadOrigin i.origin)

/-- What is done at a joint: an exception if it is refused, nothing if it moves a link without
mass, its call otherwise. Not in /repo: specification. -/
def JointStep (t : Tree) (j : UJoint) : Step → Prop
  | .refuse => Refused t j
  | .skip => ¬ Refused t j ∧ j.type ≠ some .fixed ∧ ∃ l ∈ t.links, l.name = j.child ∧ l.inertials = []
  | .give c => ¬ Refused t j ∧ JointCall t j c

/-- What is done at the root link. Not in /repo: specification. -/
def RootStep (cfg : Config) (t : Tree) (st : Step) : Prop :=
  ∃ l ∈ t.links, l.name = t.root ∧
    ((l.inertials = [] ∧ st = .skip) ∨
      (∃ i rest, l.inertials = i :: rest ∧ BadOrigin i.origin ∧ st = .refuse) ∨
      ∃ m, HasMass l m ∧
        st = .give (.link ⟨"", t.root, cfg.jointName t.root, ⟨1, 0⟩, .freeFlyer, m⟩))

/-- The steps in turn, up to the first exception. Not in /repo: specification. -/
def takeSteps {σ : Type} (b : Interface σ) : σ → List Step → Res Unit × σ
  | s, [] => (.ok (), s)
  | s, .skip :: l => takeSteps b s l
  | s, .refuse :: _ => (.throws, s)
  | s, .give c :: l =>
    match giveAll b s [c] with
    | (.ok _, s') => takeSteps b s' l
    | (.throws, s') => (.throws, s')
    | (.ub, s') => (.ub, s')

end Spec

open Spec

theorem fromPtree_bad {o : Option OriginElem} (h : BadOrigin o) : UPose.fromPtree o = .throws := by
  obtain ⟨⟨x, r⟩, rfl, h⟩ := h
  simp only at h
  rcases h with rfl | rfl
  · rfl
  · cases x <;> rfl

theorem fromPtree_good {o : Option OriginElem} (h : ¬ BadOrigin o) : ∃ p, UPose.fromPtree o = .ok p := by
  cases o with
  | none => exact ⟨_, rfl⟩
  | some e =>
    obtain ⟨x, r⟩ := e
    cases x <;> cases r <;> first
      | exact ⟨_, rfl⟩
      | exact absurd ⟨_, rfl, .inl rfl⟩ h
      | exact absurd ⟨_, rfl, .inr rfl⟩ h

theorem movingType_refused {j : UJoint} (h : ¬ Supported j) : movingType j = .throws := by
  cases hm : movingType j with
  | ok ty => exact absurd (.inr ⟨ty, movingType_ok hm⟩) h
  | throws => rfl
  | ub =>
    exfalso
    have key : turningType j.axis ≠ .ub := by
      unfold turningType
      dsimp only
      split_ifs <;> simp
    unfold movingType at hm
    cases hty : j.type with
    | none => simp [hty] at hm
    | some x => cases x <;> simp_all

theorem buildVisitor_step {t : Tree} (hc : Consistent' t) {j : UJoint} (hj : j ∈ t.joints) :
    ∃ st, JointStep t j st ∧ ∀ (σ : Type) (b : Interface σ) (s : σ),
      (buildVisitor b t).discover j s =
        ((takeSteps b s [st]).1.map fun _ => true, (takeSteps b s [st]).2) := by
  obtain ⟨l, hl, hln, hfl⟩ := find_child hc (hc.children j hj)
  have huniq : ∀ k ∈ t.links, k.name = j.child → k = l := fun k hk e =>
    List.inj_on_of_nodup_map hc.links_nodup hk hl (e.trans hln.symm)
  by_cases hs : Supported j
  swap
  · refine ⟨.refuse, .inl hs, fun σ b s => ?_⟩
    simp only [buildVisitor]
    rw [if_neg fun e => hs (.inl e), movingType_refused hs]
    rfl
  by_cases ho : BadOrigin j.origin
  · refine ⟨.refuse, .inr (.inl ho), fun σ b s => ?_⟩
    simp only [buildVisitor, fromPtree_bad ho]
    split_ifs with hf
    · rfl
    · rcases hs with hs | ⟨ty, hty⟩
      · exact absurd hs hf
      · rw [movingType_spec hty]; rfl
  obtain ⟨p, hp⟩ := fromPtree_good ho
  by_cases hf : j.type = some .fixed
  · have hnr : ¬ Refused t j := by
      rintro (h | h | h)
      · exact h hs
      · exact ho h
      · exact h.1 hf
    refine ⟨.give (.frame ⟨j.parent, j.child, j.name, framePose p⟩),
      ⟨hnr, p, hp, .inl ⟨hf, rfl⟩⟩, fun σ b s => ?_⟩
    simp only [buildVisitor, hf, if_true, hp, toPose_eq, takeSteps, giveAll, Call.isLink, true_and,
      Interface.addFrame, perform]
    split_ifs with hn
    · rfl
    · rcases b.addStaticFrame s ⟨j.parent, j.child, j.name, framePose p⟩ with ⟨r, s'⟩
      cases r <;> rfl
  · rcases hs with hs | ⟨ty, hty⟩
    · exact absurd hs hf
    · cases hi : l.inertials with
      | nil =>
        refine ⟨.skip, ⟨?_, hf, l, hl, hln, hi⟩, fun σ b s => ?_⟩
        · rintro (h | h | ⟨-, k, hk, hkn, i, rest, hki, -⟩)
          · exact h (.inr ⟨ty, hty⟩)
          · exact ho h
          · rw [huniq k hk hkn, hi] at hki; simp at hki
        · simp only [buildVisitor, hf, if_false, hp, movingType_spec hty, hfl, discoverLink, hi]
          rfl
      | cons i rest =>
        by_cases hb : BadOrigin i.origin
        · refine ⟨.refuse, .inr (.inr ⟨hf, l, hl, hln, i, rest, hi, hb⟩), fun σ b s => ?_⟩
          simp only [buildVisitor, hf, if_false, hp, movingType_spec hty, hfl, discoverLink, hi,
            bodyMass, fromPtree_bad hb]
          rfl
        · obtain ⟨q, hq⟩ := fromPtree_good hb
          obtain ⟨m, hbm, hmm⟩ := bodyMass_spec hi hq
          refine ⟨.give (.link ⟨j.parent, j.child, j.name, framePose p, ty, m⟩),
            ⟨?_, p, hp, .inr ⟨hf, l, hl, hln, ty, m, hty, hmm, rfl⟩⟩, fun σ b s => ?_⟩
          · rintro (h | h | ⟨-, k, hk, hkn, i', rest', hki, hb'⟩)
            · exact h (.inr ⟨ty, hty⟩)
            · exact ho h
            · rw [huniq k hk hkn, hi] at hki
              simp only [List.cons.injEq] at hki
              exact hb (hki.1 ▸ hb')
          simp only [buildVisitor, hf, if_false, hp, toPose_eq, movingType_spec hty, hfl, discoverLink,
            hi, hbm, takeSteps, giveAll, Call.isLink, Bool.true_eq_false, false_and, perform,
            Interface.add]
          rcases b.addLink s ⟨j.parent, j.child, j.name, framePose p, ty, m⟩ with ⟨r, s'⟩
          cases r <;> rfl

theorem takeSteps_cons {σ : Type} (b : Interface σ) (s : σ) (st : Step) (l : List Step) :
    takeSteps b s (st :: l) = match takeSteps b s [st] with
      | (.ok _, s') => takeSteps b s' l
      | (.throws, s') => (.throws, s')
      | (.ub, s') => (.ub, s') := by
  cases st with
  | skip => rfl
  | refuse => rfl
  | give c =>
    simp only [takeSteps]
    rcases giveAll b s [c] with ⟨r, s'⟩
    cases r <;> rfl

theorem runCalls_steps {t : Tree} (hc : Consistent' t) (tr : List Event)
    (htr : ∀ j, Event.disc j ∈ tr → j ∈ t.joints) :
    ∃ sts, List.Forall₂ (JointStep t) (discs tr) sts ∧ ∀ (σ : Type) (b : Interface σ) (s : σ),
      runCalls (buildVisitor b t) tr s = takeSteps b s sts := by
  induction tr with
  | nil => exact ⟨[], .nil, fun σ b s => rfl⟩
  | cons e tr ih =>
    obtain ⟨cs, h1, h2⟩ := ih fun j hj => htr j (by simp [hj])
    cases e with
    | disc j =>
      obtain ⟨c, hjc, hd⟩ := buildVisitor_step hc (htr j (by simp))
      refine ⟨c :: cs, by rw [discs_disc]; exact .cons hjc h1, fun σ b s => ?_⟩
      rw [runCalls, hd, takeSteps_cons b s c cs]
      rcases takeSteps b s [c] with ⟨r, s'⟩
      cases r with
      | ok u => exact h2 σ b s'
      | throws => rfl
      | ub => rfl
    | fin j =>
      refine ⟨cs, by rw [discs_fin]; exact h1, fun σ b s => ?_⟩
      rw [runCalls]
      exact h2 σ b s

/-- The traversal of any consistent tree, readable and supported or not, with any builder: the root
link, then exactly one step per joint below the root, parents before children and siblings in the order
of the document. A joint that moves in an unsupported way or has an unreadable pose is an exception when
it is reached: the calls for the joints before it have been made, no other is. A moving joint whose link
has no mass is passed over silently. Nothing else fails, unless the builder does. -/
theorem C65_traversal (t : Tree) (hc : Consistent' t) :
    ∃ js sts, PreOrder t js ∧ List.Forall₂ (JointStep t) js sts ∧
      ∃ n0, ∀ n ≥ n0, ∀ (σ : Type) (b : Interface σ) (s : σ), ∃ rst, RootStep (b.config s) t rst ∧
        buildFromTree b n t s = some (takeSteps b s (rst :: sts)) := by
  obtain ⟨tr, hC, n0, hn0⟩ := C47_traverse t hc fun _ => true
  have hpre := preOrder_of_calls hc hC
  obtain ⟨sts, h1, h2⟩ := runCalls_steps hc tr fun j hj => ((hpre.mem j).1 ((discs_mem _ _).2 hj)).1
  refine ⟨discs tr, sts, hpre, h1, n0, fun n hn σ b s => ?_⟩
  obtain ⟨l, hl, hln, hfl⟩ := find_child hc hc.root_mem
  have hcall : ∀ s, traverseJoints (buildVisitor b t) t n s = some (takeSteps b s sts) := by
    intro s
    rw [hn0 n hn σ _ (buildVisitor_decides b t), h2]
  unfold buildFromTree
  rw [hfl]
  cases hi : l.inertials with
  | nil =>
    refine ⟨.skip, ⟨l, hl, hln, .inl ⟨hi, rfl⟩⟩, ?_⟩
    simp only [discoverLink, hi]
    exact hcall s
  | cons i rest =>
    by_cases hb : BadOrigin i.origin
    · refine ⟨.refuse, ⟨l, hl, hln, .inr (.inl ⟨i, rest, hi, hb, rfl⟩)⟩, ?_⟩
      simp only [discoverLink, hi, bodyMass, fromPtree_bad hb]
      rfl
    · obtain ⟨q, hq⟩ := fromPtree_good hb
      obtain ⟨m, hbm, hmm⟩ := bodyMass_spec hi hq
      refine ⟨_, ⟨l, hl, hln, .inr (.inr ⟨m, hmm, rfl⟩)⟩, ?_⟩
      rw [takeSteps_cons]
      simp only [discoverLink, hi, hbm, takeSteps, giveAll, Call.isLink, Bool.true_eq_false, false_and,
        if_false, perform, Interface.addUnnamed, Interface.add]
      rcases b.addLink s ⟨"", t.root, (b.config s).jointName t.root, ⟨1, 0⟩, .freeFlyer, m⟩ with ⟨r, s'⟩
      cases r with
      | ok u => exact hcall s'
      | throws => rfl
      | ub => rfl

/-- A document that is not a robot description is refused, before the builder is called. -/
theorem C65_refused_document {σ : Type} (b : Interface σ) (n : ℕ) (doc : List Elem)
    (h : ¬ Acceptable doc) (remove fix : Bool) (s : σ) :
    buildFromUrdf b n doc remove fix s = some (.throws, s) := by
  unfold buildFromUrdf
  rw [(C45_accepts_iff doc).2.2 h]

/-- Asking to remove the root joint of a description whose root link does not have exactly one joint is
refused, before the builder is called. -/
theorem C65_refused_root {σ : Type} (b : Interface σ) (n : ℕ) (doc : List Elem) (t : Tree)
    (hl : load doc = .ok t) (h : ¬ ∃! j, j ∈ t.joints ∧ j.parent = t.root) (fix : Bool) (s : σ) :
    buildFromUrdf b n doc true fix s = some (.throws, s) := by
  have hc := (C45_consistent doc t hl).1
  have h' := C49_root t hc
  rw [if_neg h] at h'
  unfold buildFromUrdf
  simp only [hl, prepare, if_true, h']

theorem takeSteps_refuse {σ : Type} {b : Interface σ} {cfg : Config} (hb : Accepting b cfg)
    (sts : List Step) (h : Step.refuse ∈ sts) (s : σ) : ∃ s', takeSteps b s sts = (.throws, s') := by
  induction sts generalizing s with
  | nil => simp at h
  | cons st sts ih =>
    cases st with
    | refuse => exact ⟨s, rfl⟩
    | skip => exact ih (by simpa using h) s
    | give c =>
      have h' : Step.refuse ∈ sts := by simpa using h
      simp only [takeSteps, giveAll]
      split_ifs
      · exact ih h' s
      · have := hb.ok s c
        rcases hp : perform b s c with ⟨r, s'⟩
        rw [hp] at this
        simp only at this
        subst this
        exact ih h' s'

/-- With a builder that accepts everything, a description that loads and can be read is refused with an
exception as soon as one joint below the root of the edited tree moves in an unsupported way. -/
theorem C65_refused_joint (doc : List Elem) (t : Tree) (hl : load doc = .ok t) (ho : OneInertial t)
    (hr : Readable t) (remove fix : Bool)
    (hrem : remove = true → ∃! j, j ∈ t.joints ∧ j.parent = t.root) :
    ∃ t', Prepared remove fix t t' ∧ ∃ n0, ∀ n ≥ n0, ∀ (σ : Type) (b : Interface σ) (cfg : Config)
      (s : σ), Accepting b cfg → (∃ j ∈ t'.joints, Reach t' j.child ∧ ¬ Supported j) →
      ∃ s', buildFromUrdf b n doc remove fix s = some (.throws, s') := by
  have hc := (C45_consistent doc t hl).1
  obtain ⟨n1, t', hc', hr', hp, hn1⟩ := prepare_spec t hc ho hr remove fix hrem
  obtain ⟨js, sts, h1, h2, n2, hn2⟩ := C65_traversal t' hc'
  refine ⟨t', hp, max n1 n2, fun n hn σ b cfg s hb ⟨j, hj, hreach, hs⟩ => ?_⟩
  obtain ⟨rst, h3, h4⟩ := hn2 n (le_trans (le_max_right _ _) hn) σ b s
  have hmem : Step.refuse ∈ sts := by
    obtain ⟨st, hst, hjs⟩ := forall₂_mem' h2 ((h1.mem j).2 ⟨hj, hreach⟩)
    cases st with
    | refuse => exact hst
    | skip => exact absurd (.inl hs) hjs.1
    | give c => exact absurd (.inl hs) hjs.1
  obtain ⟨s', e⟩ := takeSteps_refuse hb (rst :: sts) (by simp [hmem]) s
  refine ⟨s', ?_⟩
  unfold buildFromUrdf
  simp only [hl, hn1 n (le_trans (le_max_left _ _) hn)]
  rw [h4, e]

/-- A lid fixed on a box, both with a mass written as zero. Helper of the proofs. Not in /repo:
specification. -/
def zeroDoc : List Elem :=
  let m : UInertial := ⟨none, ⟨0, 0, 0, 0, 0, 0, 0⟩⟩
  [.link (some "box") [m] [] [], .link (some "lid") [m] [] [],
   .joint (some "hinge") (some "box") (some "lid") (some .fixed) none none none]

/-- This description loads, yet masses that add up to zero along a fixed joint are
divided by their sum before the builder is called: `Readable`, which asks for positive masses, cannot
be dropped from `C65_build`. -/
theorem C65_zero_masses {σ : Type} (b : Interface σ) (n : ℕ) (hn : 2 ≤ n) (fix : Bool) (s : σ) :
    buildFromUrdf b n zeroDoc false fix s = some (.ub, s) := by
  obtain ⟨m, rfl⟩ : ∃ m, n = m + 2 := ⟨n - 2, by omega⟩
  let i : UInertial := ⟨none, ⟨0, 0, 0, 0, 0, 0, 0⟩⟩
  let j : UJoint := ⟨"hinge", some .fixed, "box", "lid", none, none, none⟩
  let t : Tree := ⟨[⟨"box", [i], [], []⟩, ⟨"lid", [i], [], []⟩], [j], "box"⟩
  have hl : load zeroDoc = .ok t := rfl
  have hsq : mergeInertial none i (some i) = .ub := by
    simp [mergeInertial, UPose.fromPtree, squashInertial, i]
  have hm : makeMasslessJointsFixed (m + 2) t = some (.ub, t, []) := by
    have hc1 : t.childJoints "box" = [j] := rfl
    have hc2 : t.childJoints "lid" = [] := rfl
    have hf : masslessVisitor.finish j (t, []) = (.ub, t, []) := by
      have e1 : t.findJoint "hinge" = some j := rfl
      have e2 : t.findLink "lid" = some ⟨"lid", [i], [], []⟩ := rfl
      have e3 : t.findLink "box" = some ⟨"box", [i], [], []⟩ := rfl
      have : t.squashJoint j = (.ub, t) := by
        simp only [Tree.squashJoint, j, e2, e3, List.head?_cons, hsq]
      simp only [masslessVisitor, j, e1]
      rw [show (⟨"hinge", some .fixed, "box", "lid", none, none, none⟩ : UJoint) = j from rfl, this]
    show walkJoint masslessVisitor t (m + 2) "box" (t, []) = _
    rw [walkJoint, hc1, walkList]
    have hd : masslessVisitor.discover j (t, []) = (.ok true, t, []) := rfl
    rw [hd]
    simp only [if_true]
    rw [show j.child = "lid" from rfl, walkJoint, hc2, walkList]
    simp only [hf]
  have hcont : makeContinuousJointsFixed (m + 2) t = some (.ok (), t, []) := rfl
  unfold buildFromUrdf
  rw [hl]
  cases fix
  · simp [prepare, hm]
  · simp [prepare, hm, hcont]

/-! ### Examples -/

/-- A rail on a base, the carriage sliding on it. Helper of the examples. Not in /repo: specification. -/
def slideDoc : List Elem :=
  let m : UInertial := ⟨none, ⟨2, 1, 0, 0, 1, 0, 1⟩⟩
  [.link (some "base") [m] [] [], .link (some "rail") [m] [] [], .link (some "carriage") [m] [] [],
   .joint (some "turn") (some "base") (some "rail") (some .revolute) none (some ![0, 0, 1]) none,
   .joint (some "slide") (some "rail") (some "carriage") (some .prismatic) none none none]

/-- Helper of the examples. Not in /repo: specification. -/
def turnJoint : UJoint := ⟨"turn", some .revolute, "base", "rail", none, some ![0, 0, 1], none⟩

/-- Helper of the examples. Not in /repo: specification. -/
def slideJoint : UJoint := ⟨"slide", some .prismatic, "rail", "carriage", none, none, none⟩

theorem slideDoc_hyps : ∃ t, load slideDoc = .ok t ∧ OneInertial t ∧ Readable t ∧ t.root = "base" ∧
    t.links = docLinks slideDoc ∧ ∀ j, j ∈ t.joints ↔ j = turnJoint ∨ j = slideJoint := by
  have hacc : Acceptable slideDoc := by
    constructor
    · simp [slideDoc, Complete]
    · simp [slideDoc, docLinks]
    · simp [slideDoc, docJoints]
    · simp [slideDoc, docJoints, docLinks]
    · simp [slideDoc, docJoints, docLinks]
    · simp [slideDoc, docJoints]
    · refine ⟨"base", by simp [slideDoc, docJoints, docLinks], ?_⟩
      simp [slideDoc, docJoints, docLinks]
    · simp [slideDoc, docJoints]
    · intro ds j rest e s hs
      have : j ∈ docJoints slideDoc := by rw [e]; simp
      simp [slideDoc, docJoints] at this
      rcases this with rfl | rfl <;> simp at hs
  obtain ⟨t, ht⟩ := (C45_accepts_iff _).1.2 hacc
  obtain ⟨-, hl, hj, hr1, hr2⟩ := (load_ok_iff _ t).1 ht
  have hmem : ∀ j, j ∈ t.joints ↔ j = turnJoint ∨ j = slideJoint := by
    intro j; rw [hj, index_mem]; simp [slideDoc, docJoints, turnJoint, slideJoint]
  have hroot : t.root = "base" := by
    simp [slideDoc, docJoints, docLinks] at hr1 hr2
    tauto
  refine ⟨t, ht, ?_, ?_, hroot, hl, hmem⟩
  · intro l hl'
    rw [hl] at hl'
    simp [slideDoc, docLinks] at hl'
    rcases hl' with rfl | rfl | rfl <;> simp
  · constructor
    · intro j hj'
      rw [hmem] at hj'
      rcases hj' with rfl | rfl <;> simp [turnJoint, slideJoint]
    · intro j hj'
      rw [hmem] at hj'
      rcases hj' with rfl | rfl <;> simp [turnJoint, slideJoint, UPose.fromPtree]
    · intro l hl' i hi
      rw [hl] at hl'
      simp [slideDoc, docLinks] at hl'
      rcases hl' with rfl | rfl | rfl <;> simp at hi <;> simp [hi, UPose.fromPtree]
    · intro l hl' i hi
      rw [hl] at hl'
      simp [slideDoc, docLinks] at hl'
      rcases hl' with rfl | rfl | rfl <;> simp at hi <;> simp [hi]

theorem slide_not_supported : ¬ Supported slideJoint := by simp [Supported, Motion, slideJoint]

/-- A robot with a sliding joint is never built, whatever the options. -/
example (fix : Bool) : ∃ n0, ∀ n ≥ n0, ∃ s',
    buildFromUrdf acceptAll n slideDoc false fix [] = some (.throws, s') := by
  obtain ⟨t, ht, ho, hr, hroot, hlinks, hmem⟩ := slideDoc_hyps
  obtain ⟨t', hp, n0, hn0⟩ := C65_refused_joint slideDoc t ht ho hr false fix (by simp)
  refine ⟨n0, fun n hn => hn0 n hn _ _ _ _ acceptAll_accepting ⟨slideJoint, ?_, ?_, slide_not_supported⟩⟩
  · obtain ⟨mid, cont, names, e1, e2, e3, e4, e5, e6, e7⟩ := hp.steps
    have hs : slideJoint ∈ mid.joints := by
      rw [e3]
      refine List.mem_map.2 ⟨slideJoint, ?_, ?_⟩
      · rw [List.mem_filter, hmem]; simp
      · unfold markFixed
        rw [if_neg]
        intro hx
        obtain ⟨-, j, hj, hjn, hjt, -⟩ := (e4 _).1 hx
        rw [hmem] at hj
        rcases hj with rfl | rfl
        · simp [turnJoint, slideJoint] at hjn
        · simp [slideJoint] at hjt
    rw [e5]
    refine List.mem_map.2 ⟨slideJoint, hs, ?_⟩
    unfold markFixed
    rw [if_neg]
    intro hx
    obtain ⟨j, hj, hjn, -, -, hcm⟩ := (e6 _).1 hx
    rw [e3] at hj
    obtain ⟨k, hk, rfl⟩ := List.mem_map.1 hj
    rw [markFixed_name] at hjn
    rw [markFixed_child] at hcm
    have hk' := (hmem k).1 (List.mem_filter.1 hk).1
    rcases hk' with rfl | rfl
    · simp [turnJoint, slideJoint] at hjn
    · refine hcm ?_
      unfold CarriesMass
      rw [e2, hlinks]
      refine ⟨⟨"carriage", [⟨none, ⟨2, 1, 0, 0, 1, 0, 1⟩⟩], [], []⟩, ?_, by simp, .refl⟩
      simp [slideDoc, docLinks]
  · obtain ⟨names, e⟩ := hp.joints
    have hup : ∀ a b, Up t a b → Up t' a b := by
      rintro a b ⟨j, hj, rfl, rfl⟩
      refine ⟨markFixed names j, ?_, markFixed_child _ _, markFixed_parent _ _⟩
      rw [e]
      exact List.mem_map.2 ⟨j, by simp [hj], rfl⟩
    have hr' : t'.root = "base" := by simpa [hroot] using hp.root
    refine .head (b := "rail") (hup _ _ ⟨slideJoint, (hmem _).2 (.inr rfl), rfl, rfl⟩)
      (.head (b := "base") (hup _ _ ⟨turnJoint, (hmem _).2 (.inl rfl), rfl, rfl⟩) ?_)
    rw [hr']

/-- What the traversal gives of that robot: the base and the rail, then the exception. -/
example (t : Tree) (hl : load slideDoc = .ok t) :
    ∃ n0, ∀ n ≥ n0, ∃ c d, buildFromTree acceptAll n t [] = some (.throws, [c, d]) ∧
      c.frameName = "base" ∧ d.frameName = "rail" := by
  obtain ⟨t0, ht, -, -, hroot, hlinks, hmem⟩ := slideDoc_hyps
  have : t0 = t := by rw [ht] at hl; exact Res.ok.inj hl
  subst this
  have hc := (C45_consistent _ _ ht).1
  obtain ⟨js, sts, h1, h2, n0, hn0⟩ := C65_traversal t0 hc
  have hr1 : Reach t0 "rail" := .head (b := "base") ⟨turnJoint, (hmem _).2 (.inl rfl), rfl, rfl⟩
    (by rw [hroot])
  have hr2 : Reach t0 "carriage" := .head (b := "rail") ⟨slideJoint, (hmem _).2 (.inr rfl), rfl, rfl⟩ hr1
  have hjs : js = [turnJoint, slideJoint] := by
    have m1 : turnJoint ∈ js := (h1.mem _).2 ⟨(hmem _).2 (.inl rfl), hr1⟩
    have m2 : slideJoint ∈ js := (h1.mem _).2 ⟨(hmem _).2 (.inr rfl), hr2⟩
    have hsub := h1.parent_first _ m1 _ m2 rfl
    refine (hsub.eq_of_length_le ?_).symm
    refine (h1.nodup.subperm fun x hx => ?_).length_le
    simpa using (hmem x).1 ((h1.mem x).1 hx).1
  rw [hjs] at h2
  refine ⟨n0, fun n hn => ?_⟩
  obtain ⟨rst, ⟨l, hl', hln, hrst⟩, e⟩ := hn0 n hn _ acceptAll []
  rw [hlinks] at hl'
  rw [hroot] at hln
  rw [e]
  match sts, h2 with
  | [a, b], .cons ha (.cons hb .nil) =>
    have hbr : b = .refuse := by
      cases b with
      | refuse => rfl
      | skip => exact absurd (.inl slide_not_supported) hb.1
      | give c => exact absurd (.inl slide_not_supported) hb.1
    subst hbr
    have hml : ∀ k ∈ docLinks slideDoc, k.inertials = [⟨none, ⟨2, 1, 0, 0, 1, 0, 1⟩⟩] := by
      intro k hk
      simp [slideDoc, docLinks] at hk
      rcases hk with rfl | rfl | rfl <;> rfl
    have hbad : ¬ BadOrigin none := by simp [BadOrigin]
    have har : ∃ d, a = .give d ∧ d.frameName = "rail" ∧ d.isLink = true := by
      cases a with
      | refuse =>
        rcases ha with h | h | ⟨-, k, hk, -, i, rest, hi, hb⟩
        · exact absurd (.inr ⟨.rz, .inr ⟨.inl rfl, .inr (.inr ⟨rfl, rfl⟩)⟩⟩) h
        · exact absurd h hbad
        · rw [hml k (hlinks ▸ hk)] at hi
          simp only [List.cons.injEq] at hi
          rw [← hi.1] at hb
          exact absurd hb hbad
      | skip =>
        obtain ⟨-, -, k, hk, -, hi⟩ := ha
        rw [hml k (hlinks ▸ hk)] at hi
        simp at hi
      | give d =>
        obtain ⟨h1, -, -, h2⟩ := jointCall_names ha.2
        exact ⟨d, rfl, h1, h2.2 (by simp [turnJoint])⟩
    obtain ⟨d, rfl, hd, hdl⟩ := har
    rcases hrst with ⟨hi, -⟩ | ⟨i, rest, hi, hb, -⟩ | ⟨m, -, rfl⟩
    · rw [hml l hl'] at hi; simp at hi
    · rw [hml l hl'] at hi
      simp only [List.cons.injEq] at hi
      rw [← hi.1] at hb
      exact absurd hb hbad
    · refine ⟨.link ⟨"", t0.root, (acceptAll.config []).jointName t0.root, ⟨1, 0⟩, .freeFlyer, m⟩, d, ?_,
        hroot, hd⟩
      · cases d with
        | link k => simp [takeSteps, giveAll, Call.isLink, perform, acceptAll]
        | frame k => simp [Call.isLink] at hdl

/-- A document whose only joint hangs in the air is refused. -/
example (b : Interface (List Call)) :
    buildFromUrdf b 0 [.joint (some "j") (some "a") (some "b") none none none none] true true [] =
      some (.throws, []) := by
  refine C65_refused_document b 0 _ (fun h => ?_) true true []
  have := h.parents
  simp [docJoints, docLinks] at this

/-- A base with two joints cannot lose its root joint. -/
example (b : Interface (List Call)) : ∃ doc t, load doc = .ok t ∧ t.joints.length = 2 ∧
    buildFromUrdf b 0 doc true false [] = some (.throws, []) := by
  let doc : List Elem := [.link (some "a") [] [] [], .link (some "b") [] [] [], .link (some "c") [] [] [],
    .joint (some "ab") (some "a") (some "b") none none none none,
    .joint (some "ac") (some "a") (some "c") none none none none]
  let t : Tree := ⟨[⟨"a", [], [], []⟩, ⟨"b", [], [], []⟩, ⟨"c", [], [], []⟩],
    [⟨"ab", none, "a", "b", none, none, none⟩, ⟨"ac", none, "a", "c", none, none, none⟩], "a"⟩
  have ht : load doc = .ok t := rfl
  refine ⟨doc, t, ht, rfl, C65_refused_root b 0 doc t ht ?_ false []⟩
  rintro ⟨j, -, hu⟩
  have h1 := hu ⟨"ab", none, "a", "b", none, none, none⟩ ⟨by simp [t], rfl⟩
  have h2 := hu ⟨"ac", none, "a", "c", none, none, none⟩ ⟨by simp [t], rfl⟩
  rw [← h2] at h1
  simp at h1

end AlMath
