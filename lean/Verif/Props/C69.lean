import Verif.Lemmas.Filenames

/-!
C69: `robot::transform_filenames` replaces exactly the file names of the meshes and textures of visuals
and of the textures of the materials of the robot.
-/

namespace AlMath.Filenames

open Spec

/-- C69: a document whose visuals have geometries, with file names the function accepts, is kept except for
the file names of meshes and textures of visuals and of materials of the robot, which are replaced by what
the function gives for them. -/
theorem C69_replaced (op : String → Option String) (t : Xml) (hg : VisualsHaveGeometry t)
    (hop : ∀ p s, IsFilename t p → textAt t p = some s → op s ≠ none) :
    ∃ t', transformFilenames op t = (.ok (), t') ∧ ∀ p, keysAt t' p = keysAt t p ∧
      (IsFilename t p → textAt t' p = (textAt t p).bind op) ∧
      (¬ IsFilename t p → textAt t' p = textAt t p) := by
  have d := does_transform op
  have h : (transformFilenames op t).1 = .ok () := (d.ok t).mpr ⟨hg, fun p hp s hs => hop p s hp hs⟩
  refine ⟨_, Prod.ext h rfl, fun p => ⟨d.keys t p, d.done t h p, fun hp => ?_⟩⟩
  rcases d.part t p with h1 | ⟨h1, -⟩
  · exact h1
  · exact absurd h1 hp

/-- C69: otherwise an exception is thrown; the document keeps its elements, and each text is still there
except for file names, which may have been replaced already. -/
theorem C69_rejected (op : String → Option String) (t : Xml)
    (h : ¬ (VisualsHaveGeometry t ∧ ∀ p s, IsFilename t p → textAt t p = some s → op s ≠ none)) :
    ∃ t', transformFilenames op t = (.throws, t') ∧ ∀ p, keysAt t' p = keysAt t p ∧
      (textAt t' p = textAt t p ∨ IsFilename t p ∧ textAt t' p = (textAt t p).bind op) := by
  have d := does_transform op
  have h1 : (transformFilenames op t).1 ≠ .ok () := by
    rw [Ne, d.ok t]
    exact fun h' => h ⟨h'.1, fun p s hp hs => h'.2 p hp s hs⟩
  have h2 : (transformFilenames op t).1 = .throws := by
    have := d.noUb t
    rcases hr : (transformFilenames op t).1 with _ | _ | _ <;> simp_all
  refine ⟨_, Prod.ext h2 rfl, fun p => ⟨d.keys t p, ?_⟩⟩
  rcases d.part t p with h3 | ⟨h3, s, s', h4, h5, h6⟩
  · exact .inl h3
  · exact .inr ⟨h3, by rw [h6, h4]; exact h5.symm⟩

theorem size_child {t : Xml} {i : ℕ} {k c} (h : t.children[i]? = some (k, c)) : sizeOf c < sizeOf t := by
  obtain ⟨s, l⟩ := t
  have h1 := List.sizeOf_lt_of_mem (List.mem_of_getElem? h)
  simp only [Xml.children, Prod.mk.sizeOf_spec] at h1
  simp only [Xml.node.sizeOf_spec]
  omega

theorem xml_ext (t t' : Xml) (h : ∀ p, keysAt t' p = keysAt t p ∧ textAt t' p = textAt t p) : t' = t := by
  have h0 : t'.children = t.children := by
    apply List.ext_getElem?
    intro i
    have hs : SameKeys t t' := fun p => (h p).1
    cases hc : t.children[i]? with
    | none =>
      have := keys_children hs i
      rw [hc] at this
      simpa using this
    | some x =>
      obtain ⟨k, c⟩ := x
      obtain ⟨c', h1, h2⟩ := keys_child hs hc
      rw [h1]
      have h3 : ∀ p, keysAt c' p = keysAt c p ∧ textAt c' p = textAt c p := by
        intro p
        have := h (i :: p)
        rwa [textAt, textAt, keysAt, keysAt, nodeAt_cons _ _ _ hc, nodeAt_cons _ _ _ h1] at this
      rw [xml_ext c c' h3]
  have h1 := (h []).2
  obtain ⟨s, l⟩ := t
  obtain ⟨s', l'⟩ := t'
  simp only [textAt, nodeAt, Option.map_some, Option.some.injEq, Xml.text] at h1
  simp only [Xml.children] at h0
  rw [h0, h1]
termination_by sizeOf t
decreasing_by exact size_child hc

/-- C69: the identity changes nothing. -/
theorem C69_identity (t : Xml) (hg : VisualsHaveGeometry t) : transformFilenames some t = (.ok (), t) := by
  obtain ⟨t', h1, h2⟩ := C69_replaced some t hg (by simp)
  rw [h1, xml_ext t t' fun p => ⟨(h2 p).1, ?_⟩]
  by_cases hp : IsFilename t p
  · rw [(h2 p).2.1 hp]
    cases textAt t p <;> rfl
  · exact (h2 p).2.2 hp

theorem ok_spec {op : String → Option String} {t t' : Xml} (h : transformFilenames op t = (.ok (), t')) :
    VisualsHaveGeometry t ∧ (∀ p s, IsFilename t p → textAt t p = some s → op s ≠ none) ∧
    ∀ p, keysAt t' p = keysAt t p ∧ (IsFilename t p → textAt t' p = (textAt t p).bind op) ∧
      (¬ IsFilename t p → textAt t' p = textAt t p) := by
  have h0 : (transformFilenames op t).1 = .ok () := by rw [h]
  obtain ⟨h1, h2⟩ := ((does_transform op).ok t).mp h0
  have h3 : ∀ p s, IsFilename t p → textAt t p = some s → op s ≠ none := fun p s hp hs => h2 p hp s hs
  obtain ⟨t'', h4, h5⟩ := C69_replaced op t h1 h3
  rw [h] at h4
  cases h4
  exact ⟨h1, h3, h5⟩

theorem isFilename_keys (t t' : Xml) (h : SameKeys t t') (p) : IsFilename t' p ↔ IsFilename t p := by
  unfold IsFilename
  rw [follows_keys_iff _ t t' h, follows_keys_iff _ t t' h, follows_keys_iff _ t t' h]

/-- C69: two replacements after each other are the replacement by the composed function. -/
theorem C69_compose (op op' : String → Option String) (t t' : Xml)
    (h : transformFilenames op t = (.ok (), t')) (t'' : Xml) :
    transformFilenames op' t' = (.ok (), t'') ↔
      transformFilenames (fun s => (op s).bind op') t = (.ok (), t'') := by
  obtain ⟨h1, h2, h3⟩ := ok_spec h
  have hs : SameKeys t t' := fun p => (h3 p).1
  have fwd : ∀ u, transformFilenames op' t' = (.ok (), u) →
      transformFilenames (fun s => (op s).bind op') t = (.ok (), u) := by
    intro u hu
    obtain ⟨-, h5, h6⟩ := ok_spec hu
    obtain ⟨w, h7, h8⟩ := C69_replaced (fun s => (op s).bind op') t h1 fun p s hp hs' => by
      cases ho : op s with
      | none => exact absurd ho (h2 p s hp hs')
      | some s' =>
        rw [Option.bind_some]
        refine h5 p s' ((isFilename_keys t t' hs p).mpr hp) ?_
        rw [(h3 p).2.1 hp, hs', Option.bind_some, ho]
    rw [h7, xml_ext u w fun p => ⟨?_, ?_⟩]
    · rw [(h8 p).1, (h6 p).1, (h3 p).1]
    · by_cases hp : IsFilename t p
      · rw [(h8 p).2.1 hp, (h6 p).2.1 ((isFilename_keys t t' hs p).mpr hp), (h3 p).2.1 hp,
          Option.bind_assoc]
      · rw [(h8 p).2.2 hp, (h6 p).2.2 fun h => hp ((isFilename_keys t t' hs p).mp h), (h3 p).2.2 hp]
  refine ⟨fwd t'', fun hc => ?_⟩
  obtain ⟨-, h5, -⟩ := ok_spec hc
  obtain ⟨u, h6, -⟩ := C69_replaced op' t' ((visualsHaveGeometry_keys t t' hs).mpr h1)
    fun p s hp hs' => by
      have hp' := (isFilename_keys t t' hs p).mp hp
      rw [(h3 p).2.1 hp'] at hs'
      cases ht : textAt t p with
      | none => rw [ht] at hs'; cases hs'
      | some s0 =>
        rw [ht, Option.bind_some] at hs'
        have := h5 p s0 hp' ht
        rwa [hs', Option.bind_some] at this
  have h7 := fwd u h6
  rw [hc] at h7
  cases h7
  exact h6

/-- C69: the file names of the meshes of collisions are never replaced, though the header announces that
each mesh file name is. -/
theorem C69_collision_kept (op : String → Option String) (t : Xml) (p : List ℕ)
    (b b₁ b₂ b₃ b₄ b₅ : Bool)
    (h : Follows [("link", b), ("collision", b₁), ("geometry", b₂), ("mesh", b₃), ("<xmlattr>", b₄),
      ("filename", b₅)] t p) : textAt (transformFilenames op t).2 p = textAt t p := by
  have second : ∀ {k k' : String} {c c' d d' ks ks'},
      Follows (("link", c) :: (k, d) :: ks) t p → Follows (("link", c') :: (k', d') :: ks') t p → k = k' := by
    intro k k' c c' d d' ks ks' h1 h2
    cases p with
    | nil => exact absurd h1 id
    | cons i p =>
      obtain ⟨x, h3, -, h4⟩ := h1
      obtain ⟨y, h5, -, h6⟩ := h2
      rw [h3] at h5
      cases h5
      exact follows_head h4 h6
  rcases (does_transform op).part t p with h1 | ⟨h1 | h1 | h1, -⟩
  · exact h1
  · exact absurd (follows_head h h1) (by decide)
  · exact absurd (second h h1) (by decide)
  · exact absurd (second h h1) (by decide)

/-- Helper of the examples: an element with the attribute `filename`. Not in /repo: specification. -/
def withFilename (name : String) : Xml := .node "" [("<xmlattr>", .node "" [("filename", .node name [])])]

/-- Helper of the examples: a robot with a material, a link with a mesh and a collision mesh. Not in /repo:
specification. -/
def sampleRobot (visual : List (String × Xml)) : Xml := .node "" [
  ("<xmlattr>", .node "" [("name", .node "r" [])]),
  ("material", .node "" [("texture", withFilename "skin.png")]),
  ("link", .node "" [
    ("visual", .node "" visual),
    ("collision", .node "" [("geometry", .node "" [("mesh", withFilename "arm.mesh")])])])]

/-- Helper of the examples: file names get the extension `.dae`. Not in /repo: specification. -/
def toDae (s : String) : Option String := some (s ++ ".dae")

/-- C69: nothing is undone when the exception is thrown: the texture has got its new name. -/
theorem C69_not_atomic : ∃ t', transformFilenames toDae (sampleRobot []) = (.throws, t') ∧
    textAt t' [1, 0, 0, 0] = some "skin.png.dae" ∧
    textAt (sampleRobot []) [1, 0, 0, 0] = some "skin.png" := by
  refine ⟨_, rfl, ?_, rfl⟩
  decide

/-- Helper of the examples: a visual with a mesh. Not in /repo: specification. -/
def sampleVisual : List (String × Xml) :=
  [("geometry", .node "" [("mesh", withFilename "arm.mesh")])]

theorem sampleRobot_geometry : VisualsHaveGeometry (sampleRobot sampleVisual) := by
  rw [visualsHaveGeometry_iff]
  intro i l hi j v hj
  rcases i with _ | _ | _ | i
  · simp [sampleRobot, Xml.children] at hi
  · simp [sampleRobot, Xml.children] at hi
  · cases hi
    rcases j with _ | _ | j
    · cases hj
      exact ⟨0, _, rfl⟩
    · simp [Xml.children] at hj
    · simp [Xml.children] at hj
  · simp [sampleRobot, Xml.children] at hi

/-- C69_replaced, C69_compose apply to a robot with a texture, a mesh and a collision mesh: the mesh of the
visual gets the extension twice. -/
example : ∃ t', transformFilenames (fun s => (toDae s).bind toDae) (sampleRobot sampleVisual) = (.ok (), t') ∧
    textAt t' [2, 0, 0, 0, 0, 0] = (textAt (sampleRobot sampleVisual) [2, 0, 0, 0, 0, 0]).bind
      fun s => (toDae s).bind toDae := by
  obtain ⟨t', h1, h2⟩ := C69_replaced (fun s => (toDae s).bind toDae) _ sampleRobot_geometry (by simp [toDae])
  refine ⟨t', h1, (h2 _).2.1 (.inr (.inl ?_))⟩
  exact ⟨_, rfl, by simp, _, rfl, by simp, _, rfl, by simp, _, rfl, by simp, _, rfl, by simp, _, rfl, by simp,
    trivial⟩

/-- C69_identity applies to it. -/
example : transformFilenames some (sampleRobot sampleVisual) = (.ok (), sampleRobot sampleVisual) :=
  C69_identity _ sampleRobot_geometry

/-- C69_rejected applies to a robot with a visual without geometry. -/
example : ∃ t', transformFilenames toDae (sampleRobot []) = (.throws, t') := by
  obtain ⟨t', h, -⟩ := C69_rejected toDae (sampleRobot []) fun h => by
    obtain ⟨k, c, hk⟩ := (visualsHaveGeometry_iff _).mp h.1 2 _ rfl 0 _ rfl
    cases hk
  exact ⟨t', h⟩

/-- C69_collision_kept applies to the collision mesh of the sample. -/
example : textAt (transformFilenames toDae (sampleRobot sampleVisual)).2 [2, 1, 0, 0, 0, 0] =
    some "arm.mesh" :=
  C69_collision_kept toDae _ _ false false false false false false
    ⟨_, rfl, by simp, _, rfl, by simp, _, rfl, by simp, _, rfl, by simp, _, rfl, by simp, _, rfl, by simp, trivial⟩

end AlMath.Filenames
