import Verif.Props.C66
import Verif.Lemmas.MeshSize

/-!
C67: shapes added to a scene are shown as closed surfaces on these shapes, where they were added.
-/

namespace AlMath.Spec.Collada

open AlMath.Collada

/-- A point and its normal are on one of the spheres of which the shape is the convex hull, the normal
pointing from the centre of the sphere to the point, and the point is at the radius, within a millionth,
from the segment or rectangle of which the shape is the neighbourhood. Not in /repo: specification. -/
def OnShape : Shape → ℝ × ℝ × ℝ → ℝ × ℝ × ℝ → Prop
  | .sphere r, p, n => dot3 n n = 1 ∧ p = smul3 r n
  | .pill h r, p, n => (∃ z, (z = h ∨ z = -h) ∧ dot3 n n = 1 ∧ sub3 p (0, 0, z) = smul3 r n) ∧
      (1 - 0.000001) * r ^ 2 ≤ boxDistSq 0 0 h p ∧ boxDistSq 0 0 h p ≤ r ^ 2
  | .roundedRectangle hx hy r, p, n => (∃ x y, (x = hx ∨ x = -hx) ∧ (y = hy ∨ y = -hy) ∧
      dot3 n n = 1 ∧ sub3 p (x, y, 0) = smul3 r n) ∧
      (1 - 0.000001) * r ^ 2 ≤ boxDistSq hx hy 0 p ∧ boxDistSq hx hy 0 p ≤ r ^ 2
  | _, _, _ => False

/-- The supported shapes with meaningful dimensions. Not in /repo: specification. -/
def ValidShape : Shape → Prop
  | .sphere r => 0 < r
  | .pill h r => 0 ≤ h ∧ 0 < r
  | .roundedRectangle hx hy r => 0 ≤ hx ∧ 0 ≤ hy ∧ 0 < r
  | _ => False

/-- Outcomes of adding shapes and scene after that. Not in /repo: specification. -/
noncomputable def shapesRun : List (Shape × Transform) → Scene → List (Res Unit) × Scene
  | [], s => ([], s)
  | c :: l, s =>
    ((s.addShape c.1 c.2).1 :: (shapesRun l (s.addShape c.1 c.2).2).1,
      (shapesRun l (s.addShape c.1 c.2).2).2)

/-- The mesh is a closed surface on a shape. Not in /repo: specification. -/
structure SurfaceOf (shape : Shape) (m : Mesh) : Prop where
  some_face : faces m ≠ []
  on : ∀ f ∈ faces m, ∀ v ∈ f, v.getD 0 0 < m.positionsNb ∧ v.getD 1 0 < m.normalsNb ∧
    OnShape shape (vpos m v) (vnormal m v)
  closed : ∀ a b, (edges (faces m)).count (a, b) = (edges (faces m)).count (b, a)

end AlMath.Spec.Collada

namespace AlMath.Collada

open Spec Spec.Collada

theorem complete_rounded {hx hy hz r : ℝ} (hr : r ≠ 0) {nb : ℕ} (hnb : nb ≤ 80) {m : Mesh}
    (h : createRoundedBoxMesh hx hy hz r nb = .ok m) (hm : m.currentMode = none) :
    Complete m ∧ m.withTexCoords = false := by
  obtain ⟨⟨recs, h1⟩, h2, h3, h4, h5, -⟩ := within_rounded hx hy hz r hr nb hnb (Mesh.new false) []
    (meshInv_new false) rfl
  unfold createRoundedBoxMesh at h
  rcases e : addRoundedBoxMesh hx hy hz r nb (Mesh.new false) with ⟨o, m'⟩
  rw [e] at h h1 h2 h3 h4 h5
  cases o with
  | throws => simp at h
  | ub => simp at h
  | ok u =>
    simp only [Res.ok.injEq] at h
    subst h
    dsimp only at *
    have e1 : (Mesh.new false).positions.length = 0 := rfl
    have e2 : (Mesh.new false).normals.length = 0 := rfl
    have e3 : (Mesh.new false).vertices.length = 0 := rfl
    have hp : m'.positionsNb ≤ 417320 := by
      unfold Mesh.positionsNb
      omega
    have hn : m'.normalsNb ≤ 417314 := by
      unfold Mesh.normalsNb
      omega
    refine ⟨⟨h1.consistent, hm, ?_, ?_⟩, h2⟩
    · intro c hc
      have hs := h1.consistent.counts hm
      have hv : m'.verticesNb ≤ 845016 := by
        unfold Mesh.verticesNb Mesh.verticesStride
        rw [h2]
        simp only [Bool.false_eq_true, if_false]
        omega
      have := List.le_sum_of_mem hc
      omega
    · intro i hi
      rw [h1.vertices, h2, List.mem_flatMap] at hi
      obtain ⟨v, hv, hi⟩ := hi
      simp only [Vtx.flat, Bool.false_eq_true, if_false, List.mem_cons, List.not_mem_nil, or_false] at hi
      have := h1.p_lt v hv
      have := h1.n_lt v hv
      omega

theorem addRoundedBox_sceneOf (config : SceneConfig) (l : List (Mesh × Affine)) {hx hy hz r : ℝ}
    (h0x : 0 ≤ hx) (h0y : 0 ≤ hy) (h0z : 0 ≤ hz) (hr : 0 < r) (t : Transform)
    (hn0 : 0 ≤ config.nbArcVertices) (hn1 : config.nbArcVertices ≤ 80) (hl : l.length < 2147483647) :
    ∃ m, (sceneOf config l).addRoundedBox hx hy hz r t = (.ok (), sceneOf config (l ++ [(m, t.mat)])) ∧
      Complete m ∧ m.withTexCoords = false ∧ faces m ≠ [] ∧
      (∀ f ∈ faces m, ∀ v ∈ f, v.getD 0 0 < m.positionsNb ∧ v.getD 1 0 < m.normalsNb ∧
        OnRoundedBox hx hy hz r (vpos m v) (vnormal m v)) ∧
      ∀ a b, (edges (faces m)).count (a, b) = (edges (faces m)).count (b, a) := by
  obtain ⟨nb, hnb⟩ := Int.eq_ofNat_of_zero_le hn0
  obtain ⟨m, h1, h2, h3, h4, -, -, h5⟩ := C44_create hx hy hz r h0x h0y h0z hr nb
  have hc := complete_rounded hr.ne' (by omega) h1 h2
  refine ⟨m, ?_, hc.1, hc.2, h3, h4, h5⟩
  unfold Scene.addRoundedBox
  rw [show (sceneOf config l).config.nbArcVertices = (nb : ℤ) from hnb, h1]
  dsimp only
  rw [Scene.addMeshTf, affineOf_eq, xAddMesh_sceneOf _ _ _ _ hl hc.2]

theorem addShape_sceneOf (config : SceneConfig) (l : List (Mesh × Affine)) {shape : Shape}
    (hs : ValidShape shape) (t : Transform) (hn0 : 0 ≤ config.nbArcVertices)
    (hn1 : config.nbArcVertices ≤ 80) (hl : l.length < 2147483647) :
    ∃ m, (sceneOf config l).addShape shape t = (.ok (), sceneOf config (l ++ [(m, t.mat)])) ∧
      Complete m ∧ m.withTexCoords = false ∧ SurfaceOf shape m := by
  have zero : ∀ c : ℝ, c = 0 ∨ c = -0 → c = 0 := by
    rintro c (h | h)
    · exact h
    · simpa using h
  cases shape with
  | sphere r =>
    obtain ⟨m, h1, h2, h3, h4, h5, h6⟩ := addRoundedBox_sceneOf config l le_rfl le_rfl le_rfl hs t hn0
      hn1 hl
    refine ⟨m, h1, h2, h3, h4, fun f hf v hv => ⟨(h5 f hf v hv).1, (h5 f hf v hv).2.1, ?_⟩, h6⟩
    obtain ⟨cx, cy, cz, hx, hy, hz, hu, e⟩ := (h5 f hf v hv).2.2.1
    rw [zero cx hx, zero cy hy, zero cz hz] at e
    exact ⟨hu, by simpa [sub3] using e⟩
  | pill h r =>
    obtain ⟨m, h1, h2, h3, h4, h5, h6⟩ := addRoundedBox_sceneOf config l le_rfl le_rfl hs.1 hs.2 t hn0
      hn1 hl
    refine ⟨m, h1, h2, h3, h4, fun f hf v hv => ⟨(h5 f hf v hv).1, (h5 f hf v hv).2.1, ?_⟩, h6⟩
    obtain ⟨cx, cy, cz, hx, hy, hz, hu, e⟩ := (h5 f hf v hv).2.2.1
    rw [zero cx hx, zero cy hy] at e
    exact ⟨⟨cz, hz, hu, e⟩, (h5 f hf v hv).2.2.2⟩
  | roundedRectangle hx hy r =>
    obtain ⟨m, h1, h2, h3, h4, h5, h6⟩ := addRoundedBox_sceneOf config l hs.1 hs.2.1 le_rfl hs.2.2 t hn0
      hn1 hl
    refine ⟨m, h1, h2, h3, h4, fun f hf v hv => ⟨(h5 f hf v hv).1, (h5 f hf v hv).2.1, ?_⟩, h6⟩
    obtain ⟨cx, cy, cz, hx, hy, hz, hu, e⟩ := (h5 f hf v hv).2.2.1
    rw [zero cz hz] at e
    exact ⟨⟨cx, cy, hx, hy, hu, e⟩, (h5 f hf v hv).2.2.2⟩
  | plane => exact absurd hs (by simp [ValidShape])
  | halfSpace => exact absurd hs (by simp [ValidShape])
  | rectangle x y => exact absurd hs (by simp [ValidShape])
  | halfLine => exact absurd hs (by simp [ValidShape])

theorem shapesRun_sceneOf (config : SceneConfig) (shapes : List (Shape × Transform))
    (l : List (Mesh × Affine)) (hs : ∀ c ∈ shapes, ValidShape c.1) (hn0 : 0 ≤ config.nbArcVertices)
    (hn1 : config.nbArcVertices ≤ 80) (hl : l.length + shapes.length ≤ 2147483647) :
    ∃ l', shapesRun shapes (sceneOf config l) =
        (shapes.map fun _ => .ok (), sceneOf config (l ++ l')) ∧
      List.Forall₂ (fun c p => p.2 = c.2.mat ∧ Complete p.1 ∧ p.1.withTexCoords = false ∧
        SurfaceOf c.1 p.1) shapes l' := by
  induction shapes generalizing l with
  | nil => exact ⟨[], by simp [shapesRun], .nil⟩
  | cons c shapes ih =>
    rw [List.length_cons] at hl
    obtain ⟨m, h1, h2⟩ := addShape_sceneOf config l (hs c (by simp)) c.2 hn0 hn1 (by omega)
    obtain ⟨l', h3, h4⟩ := ih (l ++ [(m, c.2.mat)]) (fun c hc => hs c (by simp [hc])) (by simp; omega)
    refine ⟨(m, c.2.mat) :: l', ?_, .cons ⟨rfl, h2⟩ h4⟩
    rw [shapesRun, h1]
    dsimp only
    rw [h3]
    simp

/-- C67: after adding any spheres, pills and rounded rectangles with a positive radius to a new scene
(with at most 80 vertices per arc), all being accepted, a Collada reader finds one object for each, in
order: a closed surface on the shape, placed with the given transform and with the colour of the
configuration. -/
theorem C67_shapes (config : SceneConfig) (hn0 : 0 ≤ config.nbArcVertices)
    (hn1 : config.nbArcVertices ≤ 80) (shapes : List (Shape × Transform))
    (hs : ∀ c ∈ shapes, ValidShape c.1) (hl : shapes.length ≤ 2147483647) :
    ∃ s0 s os, Scene.new config = .ok s0 ∧
      shapesRun shapes s0 = (shapes.map fun _ => .ok (), s) ∧ readScene s.xml = some os ∧
      List.Forall₂ (fun c o => ∃ m, SurfaceOf c.1 m ∧ Shows config.color (m, c.2.mat) o) shapes os := by
  obtain ⟨l, h1, h2⟩ := shapesRun_sceneOf config shapes [] hs hn0 hn1 (by simpa using hl)
  rw [List.nil_append] at h1
  have hc : ∀ p ∈ l, Complete p.1 ∧ p.1.withTexCoords = false := by
    clear h1 hs hl
    induction h2 with
    | nil => simp
    | cons h _ ih =>
      intro p hp
      rcases List.mem_cons.mp hp with rfl | hp
      · exact ⟨h.2.1, h.2.2.1⟩
      · exact ih p hp
  obtain ⟨os, h3, h4⟩ := mapM_nodes
    (doc := docTree config.color (geometriesOf 0 l) (nodesOf 0 l)) (Shows config.color) l 0
    fun i p hi => by
      have := hc p (List.mem_of_getElem? hi)
      rw [Nat.zero_add]
      exact shows_of_find (findable config.color hi) this.1 this.2
  refine ⟨_, _, os, new_sceneOf config, h1, ?_, ?_⟩
  · dsimp only [sceneOf]
    rw [readScene_eq]
    exact h3
  · clear h1 h3 hs hl hc
    induction h2 generalizing os with
    | nil =>
      cases h4
      exact .nil
    | cons h _ ih =>
      cases h4 with
      | cons g g' =>
        refine .cons ⟨_, h.2.2.2, ?_⟩ (ih _ g')
        rw [← h.1]
        exact g

/-- The other shapes are refused and the scene is unchanged. -/
theorem C67_unsupported (s : Scene) (shape : Shape) (t : Transform)
    (h : shape = .plane ∨ shape = .halfSpace ∨ (∃ x y, shape = .rectangle x y) ∨ shape = .halfLine) :
    s.addShape shape t = (.throws, s) := by
  rcases h with rfl | rfl | ⟨x, y, rfl⟩ | rfl <;> rfl

/-- A sphere with a negative radius can be constructed; adding it violates an assertion. -/
theorem C67_negative_radius (s : Scene) (r : ℝ) (hr : r < 0) (t : Transform) :
    (s.addShape (.sphere r) t).1 = .ub := by
  have : createRoundedBoxMesh 0 0 0 r s.config.nbArcVertices = .ub := by
    have e : addRoundedBoxMesh 0 0 0 r s.config.nbArcVertices (Mesh.new false) =
        (.ub, Mesh.new false) := by
      unfold addRoundedBoxMesh
      rw [if_neg hr.ne]
      have a0 : ∀ m : Mesh, MeshM.assert ((0 : ℝ) ≥ 0) m = (.ok (), m) := by
        intro m
        simp [MeshM.assert, MeshM.lift]
      have a1 : ∀ m : Mesh, MeshM.assert (r > 0) m = (.ub, m) := by
        intro m
        simp [MeshM.assert, MeshM.lift, hr.le]
      rw [bind_of_ok (a0 _), bind_of_ok (a0 _), bind_of_ok (a0 _)]
      show MeshM.bind _ _ _ = _
      unfold MeshM.bind
      rw [a1]
    unfold createRoundedBoxMesh
    rw [e]
  simp only [Scene.addShape, Scene.addSphere, Scene.addRoundedBox, this]

/-- C67_shapes applies to a ball, a capsule and a tablet with the default configuration. -/
example : ∃ s0 s os, Scene.new .default = .ok s0 ∧
    shapesRun [(.sphere 0.5, ⟨1, 0, 0, 5, 0, 1, 0, 0, 0, 0, 1, 0⟩),
      (.pill 1 0.25, ⟨1, 0, 0, 0, 0, 1, 0, 0, 0, 0, 1, 0⟩),
      (.roundedRectangle 2 1 0.25, ⟨0, -1, 0, 0, 1, 0, 0, 0, 0, 0, 1, 3⟩)] s0 =
        ([.ok (), .ok (), .ok ()], s) ∧ readScene s.xml = some os ∧ os.length = 3 := by
  obtain ⟨s0, s, os, h0, h1, h2, h3⟩ := C67_shapes .default (by simp [SceneConfig.default])
    (by simp [SceneConfig.default])
    [(.sphere 0.5, ⟨1, 0, 0, 5, 0, 1, 0, 0, 0, 0, 1, 0⟩),
      (.pill 1 0.25, ⟨1, 0, 0, 0, 0, 1, 0, 0, 0, 0, 1, 0⟩),
      (.roundedRectangle 2 1 0.25, ⟨0, -1, 0, 0, 1, 0, 0, 0, 0, 0, 1, 3⟩)]
    (by
      intro c hc
      simp only [List.mem_cons, List.not_mem_nil, or_false] at hc
      rcases hc with rfl | rfl | rfl <;> norm_num [ValidShape])
    (by simp)
  exact ⟨s0, s, os, h0, by simpa using h1, h2, by rw [← h3.length_eq]; rfl⟩

end AlMath.Collada
