import Verif.Model.Builder
import Mathlib.Data.List.Nodup
import Mathlib.Data.Matrix.Basic

/-!
C57: the names checker only lets well-formed systems through.
-/

namespace AlMath

open Builder

variable {T : Type}

namespace Spec

/-- A call to a builder. Not in /repo: specification. -/
inductive Call (T : Type := ℝ) where
  | link (l : Link T)
  | frame (f : StaticFrame T)

/-- Name of the new frame. Not in /repo: specification. -/
def Call.frameName : Call T → String
  | .link l => l.newBody
  | .frame f => f.newStaticFrame

/-- Name of the new transform. Not in /repo: specification. -/
def Call.transformName : Call T → String
  | .link l => l.newJoint
  | .frame f => f.newStaticTransform

/-- Name of the parent. Not in /repo: specification. -/
def Call.parentName : Call T → String
  | .link l => l.parentBody
  | .frame f => f.parentFrame

/-- The call adds a body. Not in /repo: specification. -/
def Call.isLink : Call T → Bool
  | .link _ => true
  | .frame _ => false

/-- The call may follow the calls `acc`: the parent is the galilean frame or was added by an earlier
call (as a body, if the call adds a body), and the new names were not used. Not in /repo:
specification. -/
def Allowed (gal : String) (acc : List (Call T)) (c : Call T) : Prop :=
  (c.parentName = gal ∨ ∃ d ∈ acc, d.frameName = c.parentName ∧ (c.isLink → d.isLink)) ∧
  c.frameName ≠ gal ∧ (∀ d ∈ acc, d.frameName ≠ c.frameName) ∧
  ∀ d ∈ acc, d.transformName ≠ c.transformName

/-- Each call may follow the earlier ones. Not in /repo: specification. -/
def WellFormed (gal : String) (calls : List (Call T)) : Prop :=
  ∀ l1 c l2, calls = l1 ++ c :: l2 → Allowed gal l1 c

/-- One call. Not in /repo: specification. -/
def perform {σ : Type} (b : Interface σ T) (s : σ) : Call T → Res Unit × σ
  | .link l => b.addLink s l
  | .frame f => b.addStaticFrame s f

/-- A sequence of calls, the caller going on after exceptions: the calls that succeeded, and the last
state. Not in /repo: specification. -/
def performAll {σ : Type} (b : Interface σ T) : σ → List (Call T) → List (Call T) × σ
  | s, [] => ([], s)
  | s, c :: l =>
    let r := perform b s c
    let rest := performAll b r.2 l
    (match r.1 with
      | .ok _ => c :: rest.1
      | _ => rest.1, rest.2)

end Spec

open Spec

/-- The checker has seen exactly the calls `acc`. -/
structure Tracks (gal : String) (acc : List (Call T)) (k : Known) : Prop where
  body : ∀ n, n ∈ k.bodies ↔ n = gal ∨ ∃ d ∈ acc, d.frameName = n ∧ d.isLink
  sframe : ∀ n, n ∈ k.sframes ↔ ∃ d ∈ acc, d.frameName = n ∧ ¬ d.isLink
  joint : ∀ n, n ∈ k.joints ↔ ∃ d ∈ acc, d.transformName = n ∧ d.isLink
  stransform : ∀ n, n ∈ k.stransforms ↔ ∃ d ∈ acc, d.transformName = n ∧ ¬ d.isLink

theorem Tracks.init (gal : String) : Tracks gal ([] : List (Call T)) (Known.init gal) := by
  constructor <;> intro n <;> simp [Known.init]

theorem Tracks.frame {gal : String} {acc : List (Call T)} {k : Known} (h : Tracks gal acc k) (n : String) :
    k.isKnownFrame n = true ↔ n = gal ∨ ∃ d ∈ acc, d.frameName = n := by
  unfold Known.isKnownFrame Known.isKnownBody
  simp only [Bool.or_eq_true, decide_eq_true_eq, h.body, h.sframe]
  constructor
  · rintro ((h | ⟨d, h1, h2, -⟩) | ⟨d, h1, h2, -⟩)
    · exact .inl h
    · exact .inr ⟨d, h1, h2⟩
    · exact .inr ⟨d, h1, h2⟩
  · rintro (h | ⟨d, h1, h2⟩)
    · exact .inl (.inl h)
    · by_cases hd : d.isLink
      · exact .inl (.inr ⟨d, h1, h2, hd⟩)
      · exact .inr ⟨d, h1, h2, hd⟩

theorem Tracks.transform {gal : String} {acc : List (Call T)} {k : Known} (h : Tracks gal acc k) (n : String) :
    k.isKnownTransform n = true ↔ ∃ d ∈ acc, d.transformName = n := by
  unfold Known.isKnownTransform Known.isKnownJoint
  simp only [Bool.or_eq_true, decide_eq_true_eq, h.joint, h.stransform]
  constructor
  · rintro (⟨d, h1, h2, -⟩ | ⟨d, h1, h2, -⟩) <;> exact ⟨d, h1, h2⟩
  · rintro ⟨d, h1, h2⟩
    by_cases hd : d.isLink
    · exact .inl ⟨d, h1, h2, hd⟩
    · exact .inr ⟨d, h1, h2, hd⟩

/-- What one call does. -/
theorem checker_step {σ : Type} (b : Interface σ T) {gal : String} {acc : List (Call T)} {k : Known}
    (h : Tracks gal acc k) (s : σ) (c : Call T) :
    (Allowed gal acc c ∧ ∃ k', perform (NamesChecker.interface b) (k, s) c =
      ((perform b s c).1, (k', (perform b s c).2)) ∧
      ((perform b s c).1 = .ok () → Tracks gal (acc ++ [c]) k') ∧
      ((perform b s c).1 ≠ .ok () → k' = k)) ∨
    (¬ Allowed gal acc c ∧ perform (NamesChecker.interface b) (k, s) c = (.throws, (k, s))) := by
  cases c with
  | link l =>
    simp only [perform, NamesChecker.interface, NamesChecker.addLink]
    have hp : k.isKnownBody l.parentBody = true ↔
        l.parentBody = gal ∨ ∃ d ∈ acc, d.frameName = l.parentBody ∧ d.isLink := by
      unfold Known.isKnownBody
      rw [decide_eq_true_eq, h.body]
    by_cases h1 : k.isKnownBody l.parentBody = true
    · by_cases h2 : k.isKnownFrame l.newBody = true
      · right
        refine ⟨?_, by rw [h1]; simp [h2]⟩
        rintro ⟨-, g1, g2, -⟩
        rcases (h.frame _).1 h2 with e | ⟨d, hd, e⟩
        · exact g1 e
        · exact g2 d hd e
      · by_cases h3 : k.isKnownTransform l.newJoint = true
        · right
          refine ⟨?_, by rw [h1]; simp [h2, h3]⟩
          rintro ⟨-, -, -, g3⟩
          obtain ⟨d, hd, e⟩ := (h.transform _).1 h3
          exact g3 d hd e
        · left
          refine ⟨⟨?_, ?_, ?_, ?_⟩, ?_⟩
          · rcases hp.1 h1 with e | ⟨d, hd, e, hl⟩
            · exact .inl e
            · exact .inr ⟨d, hd, e, fun _ => hl⟩
          · exact fun e => h2 ((h.frame _).2 (.inl e))
          · exact fun d hd e => h2 ((h.frame _).2 (.inr ⟨d, hd, e⟩))
          · exact fun d hd e => h3 ((h.transform _).2 ⟨d, hd, e⟩)
          · rw [h1]
            simp only [Bool.not_true, Bool.false_eq_true, if_false, h2, h3]
            rcases hb : b.addLink s l with ⟨r, s'⟩
            cases r with
            | ok u =>
              refine ⟨_, rfl, fun _ => ?_, fun hn => absurd rfl hn⟩
              constructor
              · intro n
                simp only [Finset.mem_insert, h.body, List.mem_append, List.mem_singleton]
                constructor
                · rintro (rfl | e | ⟨d, hd, e, hl⟩)
                  · exact .inr ⟨.link l, .inr rfl, rfl, rfl⟩
                  · exact .inl e
                  · exact .inr ⟨d, .inl hd, e, hl⟩
                · rintro (e | ⟨d, hd | rfl, e, hl⟩)
                  · exact .inr (.inl e)
                  · exact .inr (.inr ⟨d, hd, e, hl⟩)
                  · exact .inl e.symm
              · intro n
                simp only [h.sframe, List.mem_append, List.mem_singleton]
                constructor
                · rintro ⟨d, hd, e, hl⟩
                  exact ⟨d, .inl hd, e, hl⟩
                · rintro ⟨d, hd | rfl, e, hl⟩
                  · exact ⟨d, hd, e, hl⟩
                  · exact absurd rfl hl
              · intro n
                simp only [Finset.mem_insert, h.joint, List.mem_append, List.mem_singleton]
                constructor
                · rintro (rfl | ⟨d, hd, e, hl⟩)
                  · exact ⟨.link l, .inr rfl, rfl, rfl⟩
                  · exact ⟨d, .inl hd, e, hl⟩
                · rintro ⟨d, hd | rfl, e, hl⟩
                  · exact .inr ⟨d, hd, e, hl⟩
                  · exact .inl e.symm
              · intro n
                simp only [h.stransform, List.mem_append, List.mem_singleton]
                constructor
                · rintro ⟨d, hd, e, hl⟩
                  exact ⟨d, .inl hd, e, hl⟩
                · rintro ⟨d, hd | rfl, e, hl⟩
                  · exact ⟨d, hd, e, hl⟩
                  · exact absurd rfl hl
            | throws => exact ⟨_, rfl, fun e => absurd e (by simp), fun _ => rfl⟩
            | ub => exact ⟨_, rfl, fun e => absurd e (by simp), fun _ => rfl⟩
    · right
      refine ⟨?_, by simp [h1]⟩
      rintro ⟨g0, -⟩
      apply h1
      rw [hp]
      rcases g0 with e | ⟨d, hd, e, hl⟩
      · exact .inl e
      · exact .inr ⟨d, hd, e, hl rfl⟩
  | frame f =>
    simp only [perform, NamesChecker.interface, NamesChecker.addStaticFrame]
    by_cases h1 : k.isKnownFrame f.parentFrame = true
    · by_cases h2 : k.isKnownFrame f.newStaticFrame = true
      · right
        refine ⟨?_, by rw [h1]; simp [h2]⟩
        rintro ⟨-, g1, g2, -⟩
        rcases (h.frame _).1 h2 with e | ⟨d, hd, e⟩
        · exact g1 e
        · exact g2 d hd e
      · by_cases h3 : k.isKnownTransform f.newStaticTransform = true
        · right
          refine ⟨?_, by rw [h1]; simp [h2, h3]⟩
          rintro ⟨-, -, -, g3⟩
          obtain ⟨d, hd, e⟩ := (h.transform _).1 h3
          exact g3 d hd e
        · left
          refine ⟨⟨?_, ?_, ?_, ?_⟩, ?_⟩
          · rcases (h.frame _).1 h1 with e | ⟨d, hd, e⟩
            · exact .inl e
            · exact .inr ⟨d, hd, e, fun hf => absurd hf (by simp [Call.isLink])⟩
          · exact fun e => h2 ((h.frame _).2 (.inl e))
          · exact fun d hd e => h2 ((h.frame _).2 (.inr ⟨d, hd, e⟩))
          · exact fun d hd e => h3 ((h.transform _).2 ⟨d, hd, e⟩)
          · rw [h1]
            simp only [Bool.not_true, Bool.false_eq_true, if_false, h2, h3]
            rcases hb : b.addStaticFrame s f with ⟨r, s'⟩
            cases r with
            | ok u =>
              refine ⟨_, rfl, fun _ => ?_, fun hn => absurd rfl hn⟩
              constructor
              · intro n
                simp only [h.body, List.mem_append, List.mem_singleton]
                constructor
                · rintro (e | ⟨d, hd, e, hl⟩)
                  · exact .inl e
                  · exact .inr ⟨d, .inl hd, e, hl⟩
                · rintro (e | ⟨d, hd | rfl, e, hl⟩)
                  · exact .inl e
                  · exact .inr ⟨d, hd, e, hl⟩
                  · exact absurd hl (by simp [Call.isLink])
              · intro n
                simp only [Finset.mem_insert, h.sframe, List.mem_append, List.mem_singleton]
                constructor
                · rintro (rfl | ⟨d, hd, e, hl⟩)
                  · exact ⟨.frame f, .inr rfl, rfl, by simp [Call.isLink]⟩
                  · exact ⟨d, .inl hd, e, hl⟩
                · rintro ⟨d, hd | rfl, e, hl⟩
                  · exact .inr ⟨d, hd, e, hl⟩
                  · exact .inl e.symm
              · intro n
                simp only [h.joint, List.mem_append, List.mem_singleton]
                constructor
                · rintro ⟨d, hd, e, hl⟩
                  exact ⟨d, .inl hd, e, hl⟩
                · rintro ⟨d, hd | rfl, e, hl⟩
                  · exact ⟨d, hd, e, hl⟩
                  · exact absurd hl (by simp [Call.isLink])
              · intro n
                simp only [Finset.mem_insert, h.stransform, List.mem_append, List.mem_singleton]
                constructor
                · rintro (rfl | ⟨d, hd, e, hl⟩)
                  · exact ⟨.frame f, .inr rfl, rfl, by simp [Call.isLink]⟩
                  · exact ⟨d, .inl hd, e, hl⟩
                · rintro ⟨d, hd | rfl, e, hl⟩
                  · exact .inr ⟨d, hd, e, hl⟩
                  · exact .inl e.symm
            | throws => exact ⟨_, rfl, fun e => absurd e (by simp), fun _ => rfl⟩
            | ub => exact ⟨_, rfl, fun e => absurd e (by simp), fun _ => rfl⟩
    · right
      refine ⟨?_, by simp [h1]⟩
      rintro ⟨g0, -⟩
      apply h1
      rw [h.frame]
      rcases g0 with e | ⟨d, hd, e, -⟩
      · exact .inl e
      · exact .inr ⟨d, hd, e⟩

/-- The state after a sequence of calls keeps track of the calls that succeeded. -/
theorem performAll_tracks {σ : Type} (b : Interface σ T) {gal : String} (calls : List (Call T)) :
    ∀ (acc : List (Call T)) (k : Known) (s : σ), Tracks gal acc k → WellFormed gal acc →
      Tracks gal (acc ++ (performAll (NamesChecker.interface b) (k, s) calls).1)
        (performAll (NamesChecker.interface b) (k, s) calls).2.1 ∧
      WellFormed gal (acc ++ (performAll (NamesChecker.interface b) (k, s) calls).1) := by
  induction calls with
  | nil => intro acc k s h hw; simpa [performAll] using ⟨h, hw⟩
  | cons c calls ih =>
    intro acc k s h hw
    simp only [performAll]
    rcases checker_step b h s c with ⟨hal, k', e, hok, hno⟩ | ⟨-, e⟩
    · rw [e]
      simp only
      by_cases hr : (perform b s c).1 = .ok ()
      · rw [hr]
        simp only
        have hw' : WellFormed gal (acc ++ [c]) := by
          intro l1 d l2 hl
          rcases List.eq_nil_or_concat l2 with rfl | ⟨l2', e2, rfl⟩
          · have := List.append_inj' hl (by simp)
            rw [← this.1]
            have hd := this.2
            simp only [List.cons.injEq, and_true] at hd
            rw [← hd]
            exact hal
          · rw [List.concat_eq_append, ← List.cons_append, ← List.append_assoc] at hl
            have := List.append_inj' hl (by simp)
            exact hw l1 d l2' this.1
        have := ih (acc ++ [c]) k' (perform b s c).2 (hok hr) hw'
        simpa [List.append_assoc] using this
      · rw [hno hr]
        have := ih acc k (perform b s c).2 h hw
        cases hc : (perform b s c).1 with
        | ok u => exact absurd hc hr
        | throws => simpa using this
        | ub => simpa using this
    · rw [e]
      simp only
      exact ih acc k s h hw

/-- Whatever the wrapped builder does and whatever the calls are, the calls that succeeded form a
well-formed system: parents known before their children, and names not used before. -/
theorem C57_well_formed {σ : Type} (b : Interface σ T) (s : σ) (calls : List (Call T)) :
    WellFormed (b.config s).galileanFrame
      (performAll (NamesChecker.interface b) (NamesChecker.new b s) calls).1 := by
  have := (performAll_tracks b calls [] _ s (Tracks.init (b.config s).galileanFrame)
    (by intro l1 c l2 h; simp at h)).2
  simpa [NamesChecker.new] using this

/-- In such a system, frame names (with the galilean frame) are pairwise distinct, and so are
transform names. -/
theorem C57_distinct (gal : String) (calls : List (Call T)) (h : WellFormed gal calls) :
    (gal :: calls.map Call.frameName).Nodup ∧ (calls.map Call.transformName).Nodup := by
  induction calls using List.reverseRecOn with
  | nil => simp
  | append_singleton l c ih =>
    obtain ⟨-, g1, g2, g3⟩ := h l c [] rfl
    obtain ⟨i1, i2⟩ := ih (fun l1 d l2 e => h l1 d (l2 ++ [c]) (by rw [e]; simp))
    constructor
    · rw [List.map_append, List.map_singleton, ← List.cons_append]
      rw [List.nodup_append]
      refine ⟨i1, by simp, ?_⟩
      intro x hx y hy
      rw [List.mem_singleton] at hy
      subst hy
      rintro rfl
      rcases List.mem_cons.1 hx with e | hx
      · exact g1 e
      · obtain ⟨d, hd, e⟩ := List.mem_map.1 hx
        exact g2 d hd e
    · rw [List.map_append, List.map_singleton, List.nodup_append]
      refine ⟨i2, by simp, ?_⟩
      intro x hx y hy
      rw [List.mem_singleton] at hy
      subst hy
      rintro rfl
      obtain ⟨d, hd, e⟩ := List.mem_map.1 hx
      exact g3 d hd e

/-- After any sequence of calls: a call that may not follow the calls that succeeded so far throws,
without reaching the wrapped builder and leaving everything unchanged; a call that may follow them is
given to the wrapped builder unchanged, its outcome is returned, and the checker is unchanged if the
wrapped builder rejects it. -/
theorem C57_exact {σ : Type} (b : Interface σ T) (s : σ) (calls : List (Call T)) (c : Call T) :
    let p := performAll (NamesChecker.interface b) (NamesChecker.new b s) calls
    (¬ Allowed (b.config s).galileanFrame p.1 c →
      perform (NamesChecker.interface b) p.2 c = (.throws, p.2)) ∧
    (Allowed (b.config s).galileanFrame p.1 c →
      (perform (NamesChecker.interface b) p.2 c).1 = (perform b p.2.2 c).1 ∧
      (perform (NamesChecker.interface b) p.2 c).2.2 = (perform b p.2.2 c).2 ∧
      ((perform b p.2.2 c).1 ≠ .ok () →
        (perform (NamesChecker.interface b) p.2 c).2.1 = p.2.1)) := by
  intro p
  have ht : Tracks (b.config s).galileanFrame p.1 p.2.1 := by
    have := (performAll_tracks b calls [] _ s (Tracks.init (b.config s).galileanFrame)
      (by intro l1 c l2 h; simp at h)).1
    simpa [p, NamesChecker.new] using this
  rcases checker_step b ht p.2.2 c with ⟨hal, k', e, -, hno⟩ | ⟨hal, e⟩
  · refine ⟨fun h => absurd hal h, fun _ => ?_⟩
    rw [show p.2 = (p.2.1, p.2.2) from rfl, e]
    exact ⟨rfl, rfl, hno⟩
  · refine ⟨fun _ => ?_, fun h => absurd h hal⟩
    rw [show p.2 = (p.2.1, p.2.2) from rfl, e]

/-- A builder that records the calls and rejects those that add the body "bad". Helper of the proofs.
Not in /repo: specification. -/
def callRecorder : Interface (List Call) where
  config _ := ⟨false, fun n => n ++ "_joint", "world"⟩
  addLink s l := if l.newBody = "bad" then (.throws, s) else (.ok (), s ++ [.link l])
  addStaticFrame s f := (.ok (), s ++ [.frame f])

/-- A link. Helper of the proofs. Not in /repo: specification. -/
noncomputable def mkLink (parent new joint : String) : Link :=
  ⟨parent, new, joint, ⟨1, 0⟩, .rx, ⟨1, 0, 1⟩⟩

/-- A static frame. Helper of the proofs. Not in /repo: specification. -/
noncomputable def mkFrame (parent new tr : String) : StaticFrame := ⟨parent, new, tr, ⟨1, 0⟩⟩

/-- A sequence with four accepted and four rejected calls (unknown parent, name used, parent that is
not a body, wrapped builder). -/
example : (performAll (NamesChecker.interface callRecorder) (NamesChecker.new callRecorder [])
    [.link (mkLink "world" "a" "j1"), .link (mkLink "x" "b" "j2"), .link (mkLink "a" "b" "j1"),
      .frame (mkFrame "a" "f" "t"), .link (mkLink "f" "c" "j3"), .link (mkLink "a" "bad" "j4"),
      .link (mkLink "a" "c" "j4"), .frame (mkFrame "f" "g" "u")]).1 =
    [.link (mkLink "world" "a" "j1"), .frame (mkFrame "a" "f" "t"), .link (mkLink "a" "c" "j4"),
      .frame (mkFrame "f" "g" "u")] := by
  simp [performAll, perform, NamesChecker.interface, NamesChecker.new, NamesChecker.addLink,
    NamesChecker.addStaticFrame, callRecorder, Known.init, Known.isKnownBody, Known.isKnownFrame,
    Known.isKnownJoint, Known.isKnownTransform, mkLink, mkFrame]

/-- The call with its inertia erased. Not in /repo: specification. -/
def Spec.Call.erased [Zero T] : Call T → Call T
  | .link ⟨p, b, j, pose, t, ⟨m, c, _⟩⟩ => .link ⟨p, b, j, pose, t, ⟨m, c, 0⟩⟩
  | .frame f => .frame f

/-- The inertia eraser does what the wrapped builder would do with the erased calls. -/
theorem C57_eraser {σ : Type} [Zero T] (b : Interface σ T) (s : σ) (calls : List (Call T)) :
    (performAll (inertiaEraser b) s calls).2 = (performAll b s (calls.map Call.erased)).2 ∧
    (performAll (inertiaEraser b) s calls).1.map Call.erased =
      (performAll b s (calls.map Call.erased)).1 := by
  have step : ∀ s c, perform (inertiaEraser b) s c = perform b s c.erased := by
    intro s c
    cases c <;> rfl
  induction calls generalizing s with
  | nil => simp [performAll]
  | cons c calls ih =>
    simp only [performAll, List.map_cons, step]
    obtain ⟨i1, i2⟩ := ih (perform b s c.erased).2
    refine ⟨i1, ?_⟩
    cases (perform b s c.erased).1 <;> simp [i2]

/-- Erasing the inertia of the calls that are recorded. -/
example : (performAll (inertiaEraser callRecorder) [] [.link (mkLink "world" "a" "j1")]).2 =
    [.link ⟨"world", "a", "j1", ⟨1, 0⟩, .rx, ⟨1, 0, 0⟩⟩] := by
  simp [performAll, perform, inertiaEraser, callRecorder, mkLink]

end AlMath
