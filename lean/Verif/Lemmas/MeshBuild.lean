import Verif.Props.C41

/-!
Symbolic execution of mesh-building programs: the mesh is described as a base mesh plus the
positions, normals and polygons added so far.
-/

namespace AlMath

open Spec

/-- Coordinates of a triple, in buffer order. Not in /repo: specification. -/
def xyz (p : ℝ × ℝ × ℝ) : List ℝ := [p.1, p.2.1, p.2.2]

theorem length_flatMap_xyz (l : List (ℝ × ℝ × ℝ)) : (l.flatMap xyz).length = 3 * l.length := by
  induction l with
  | nil => rfl
  | cons p l ih => rw [List.flatMap_cons, List.length_append, ih]; simp [xyz]; ring

/-- What was added to a mesh: positions, normals, polygons, and the vertices of the open
primitive. Not in /repo: specification. -/
structure Delta where
  P : List (ℝ × ℝ × ℝ)
  N : List (ℝ × ℝ × ℝ)
  F : List (List Vert)
  o : Option (MeshMode × List Vert)

/-- Vertices of the open primitive. Not in /repo: specification. -/
def Delta.cur (D : Delta) : List Vert := (D.o.map Prod.snd).getD []

/-- Buffer record of a vertex, with the current texture coordinate of the base mesh. Not in
/repo: specification. -/
def Mesh.vrec (m : Mesh) (v : Vert) : List ℕ :=
  Vtx.flat m.withTexCoords ⟨v.p, v.n, m.currentTexCoord.getD 0⟩

/-- The base mesh with the additions, and a current normal. Not in /repo: specification. -/
def Mesh.plus (m : Mesh) (D : Delta) (cn : Option ℕ) : Mesh :=
  ⟨m.withTexCoords, m.positions ++ D.P.flatMap xyz, m.normals ++ D.N.flatMap xyz, m.texCoords,
   m.vertices ++ (D.F.flatten ++ D.cur).flatMap m.vrec, m.vcounts ++ D.F.map List.length,
   D.o.map Prod.fst, D.cur.length, cn, m.currentTexCoord⟩

/-- A mesh that can be extended: consistent, closed, and with a current texture coordinate if it
has any. Not in /repo: specification. -/
structure Base (m : Mesh) (recs : List Vtx) : Prop where
  inv : MeshInv m recs
  closed : m.currentMode = none
  tex : m.withTexCoords = true → m.currentTexCoord ≠ none

theorem Mesh.plus_nil {m : Mesh} {recs : List Vtx} (h : Base m recs) :
    m = m.plus ⟨[], [], [], none⟩ m.currentNormal := by
  have h1 := h.inv.closed h.closed
  have h2 := h.closed
  ext1 <;> simp_all [Mesh.plus, Delta.cur]

variable {m : Mesh} {recs : List Vtx}

theorem plus_positionsNb (h : Base m recs) (D : Delta) (cn : Option ℕ) :
    (m.plus D cn).positionsNb = m.positionsNb + D.P.length := by
  have := h.inv.positions
  simp only [Mesh.positionsNb, Mesh.plus, List.length_append, length_flatMap_xyz]; omega

theorem plus_normalsNb (h : Base m recs) (D : Delta) (cn : Option ℕ) :
    (m.plus D cn).normalsNb = m.normalsNb + D.N.length := by
  have := h.inv.normals
  simp only [Mesh.normalsNb, Mesh.plus, List.length_append, length_flatMap_xyz]; omega

theorem plus_position (h : Base m recs) (D : Delta) (cn : Option ℕ) (x y z : ℝ) :
    Mesh.position x y z (m.plus D cn) =
      (.ok (m.positionsNb + D.P.length), m.plus { D with P := D.P ++ [(x, y, z)] } cn) := by
  unfold Mesh.position
  have e : { m.plus D cn with positions := (m.plus D cn).positions ++ [x, y, z] } =
      m.plus { D with P := D.P ++ [(x, y, z)] } cn := by
    simp [Mesh.plus, xyz, Delta.cur]
  dsimp only
  rw [e, plus_positionsNb h]
  simp only [List.length_append, List.length_cons, List.length_nil]
  congr 2

theorem plus_normal (h : Base m recs) (D : Delta) (cn : Option ℕ) (x y z : ℝ)
    (hu : x * x + y * y + z * z = 1) :
    Mesh.normal x y z (m.plus D cn) =
      (.ok (m.normalsNb + D.N.length),
        m.plus { D with N := D.N ++ [(x, y, z)] } (some (m.normalsNb + D.N.length))) := by
  unfold Mesh.normal
  rw [if_neg (not_not.2 (by rw [hu]; norm_num))]
  have e : ∀ c, { m.plus D cn with normals := (m.plus D cn).normals ++ [x, y, z],
                                   currentNormal := c } =
      m.plus { D with N := D.N ++ [(x, y, z)] } c := by
    intro c; simp [Mesh.plus, xyz, Delta.cur]
  have hN : Mesh.normalsNb { m.plus D cn with normals := (m.plus D cn).normals ++ [x, y, z] } =
      m.normalsNb + D.N.length + 1 := by rw [normalsNb_append, plus_normalsNb h]
  dsimp only
  rw [hN, e, plus_normalsNb h]
  simp only [List.length_append, List.length_cons, List.length_nil]
  congr 2

theorem plus_normalIdx (h : Base m recs) (D : Delta) (cn : Option ℕ) (i : ℕ)
    (hi : i < m.normalsNb + D.N.length) :
    Mesh.normalIdx i (m.plus D cn) = (.ok (), m.plus D (some i)) := by
  unfold Mesh.normalIdx
  rw [if_neg (by rw [plus_normalsNb h]; omega)]
  rfl

theorem plus_begin (D : Delta) (cn : Option ℕ) (mode : MeshMode) (ho : D.o = none) :
    Mesh.begin mode (m.plus D cn) = (.ok (), m.plus { D with o := some (mode, []) } cn) := by
  unfold Mesh.begin
  rw [if_neg (by simp [Mesh.plus, ho]), if_neg (by simp [Mesh.plus, Delta.cur, ho])]
  simp [Mesh.plus, Delta.cur, ho]

theorem plus_vertexIdx (h : Base m recs) (D : Delta) (p n : ℕ) (mode : MeshMode)
    (l : List Vert) (ho : D.o = some (mode, l)) (hp : p < m.positionsNb + D.P.length) :
    Mesh.vertexIdx p (m.plus D (some n)) =
      (.ok (), m.plus { D with o := some (mode, l ++ [⟨p, n⟩]) } (some n)) := by
  rw [vertexIdx_ok (n := n) (t := m.currentTexCoord.getD 0) (by simp [Mesh.plus, ho])
    (by rw [plus_positionsNb h]; exact hp) rfl]
  · simp [Mesh.withVertex, Mesh.plus, Delta.cur, ho, Mesh.vrec]
  · intro hw
    obtain ⟨t, ht⟩ := Option.ne_none_iff_exists'.1 (h.tex hw)
    simp [Mesh.plus, ht]

/-- The mode's number of vertices divides `k`. Not in /repo: specification. -/
def Whole (mode : MeshMode) (k : ℕ) : Prop :=
  (mode = .triangles → k % 3 = 0) ∧ (mode = .quads → k % 4 = 0)

theorem blocks_map_length {α : Type} (n k : ℕ) (l : List α) (h : n * k ≤ l.length) :
    (blocks n k l).map List.length = List.replicate k n := by
  induction k generalizing l with
  | zero => rfl
  | succ k ih =>
    rw [Nat.mul_succ] at h
    simp only [blocks, List.map_cons, List.replicate_succ, List.length_take]
    rw [ih (l.drop n) (by rw [List.length_drop]; omega), min_eq_left (by omega)]

theorem blocks_flatten {α : Type} (n k : ℕ) (l : List α) (h : l.length = n * k) :
    (blocks n k l).flatten = l := by
  induction k generalizing l with
  | zero => simp at h; simp [blocks, h]
  | succ k ih =>
    rw [Nat.mul_succ] at h
    simp only [blocks, List.flatten_cons]
    rw [ih (l.drop n) (by rw [List.length_drop]; omega), List.take_append_drop]

theorem group_flatten {α : Type} (mode : MeshMode) (l : List α) (hw : Whole mode l.length) :
    (group mode l).flatten = l := by
  cases mode
  · simp only [group]; split_ifs with h
    · simp [List.length_eq_zero_iff.1 h]
    · simp
  · exact blocks_flatten _ _ _ (by have := hw.1 rfl; omega)
  · exact blocks_flatten _ _ _ (by have := hw.2 rfl; omega)

theorem group_map_length {α : Type} (mode : MeshMode) (l : List α) :
    (group mode l).map List.length = newCounts mode l.length := by
  cases mode
  · simp only [group, newCounts]; split_ifs with h <;> simp
  · exact blocks_map_length _ _ _ (by omega)
  · exact blocks_map_length _ _ _ (by omega)

theorem splits_flatten {α : Type} (F : List (List α)) :
    splits (F.map List.length) F.flatten = F := by
  induction F with
  | nil => rfl
  | cons f F ih => simp [splits, ih]

theorem rec_length (m : Mesh) (v : Vert) : (m.vrec v).length = m.verticesStride :=
  Vtx.length_flat _ _

theorem length_flatMap_rec (m : Mesh) (l : List Vert) :
    (l.flatMap m.vrec).length = m.verticesStride * l.length := by
  induction l with
  | nil => simp
  | cons v l ih => rw [List.flatMap_cons, List.length_append, ih, rec_length, List.length_cons]; ring

theorem sum_map_length {α : Type} (F : List (List α)) :
    (F.map List.length).sum = F.flatten.length := by
  rw [List.length_flatten]

theorem plus_end (h : Base m recs) (D : Delta) (cn : Option ℕ) (mode : MeshMode)
    (l : List Vert) (ho : D.o = some (mode, l)) (hw : Whole mode l.length) :
    Mesh.end (m.plus D cn) = (.ok (), m.plus { D with F := D.F ++ group mode l, o := none } cn) := by
  have hcl : m.plus { D with F := D.F ++ group mode l, o := none } cn =
      (m.plus D cn).closeWith (newCounts mode l.length) := by
    simp [Mesh.plus, Mesh.closeWith, Delta.cur, ho, group_flatten mode l hw, group_map_length]
  have hlen : ((m.plus D cn).vcounts ++ newCounts mode l.length).sum * (m.plus D cn).verticesStride =
      (m.plus D cn).vertices.length := by
    have h1 : m.vertices.length = m.verticesStride * recs.length := by
      rw [h.inv.vertices, length_flatMap_flat]; rfl
    have h2 := h.inv.count
    rw [h.inv.closed h.closed] at h2
    have h3 : (m.plus D cn).verticesStride = m.verticesStride := rfl
    rw [h3]
    simp only [Mesh.plus, List.length_append, length_flatMap_rec, h1, h2, List.sum_append,
      sum_map_length, sum_newCounts mode l.length hw.1 hw.2, Delta.cur, ho, Option.map_some,
      Option.getD_some]
    ring
  have hm : (m.plus D cn).currentMode = some mode := by simp [Mesh.plus, ho]
  have hc : (m.plus D cn).currentVcount = l.length := by simp [Mesh.plus, ho, Delta.cur]
  rw [hcl]
  unfold Mesh.end Mesh.closeWith
  rw [hm, hc]
  dsimp only
  by_cases h0 : l.length = 0
  · rw [if_neg (by simpa using h0)]
    have e : newCounts mode l.length = [] := by rw [h0]; cases mode <;> rfl
    rw [e, List.append_nil] at hlen ⊢
    exact if_pos hlen
  · rw [if_pos h0]
    cases mode with
    | polygon =>
      rw [if_pos rfl]
      simp only [newCounts, if_neg h0] at hlen ⊢
      exact if_pos hlen
    | triangles =>
      rw [if_neg (by simp)]
      simp only [newCounts, if_true] at hlen ⊢
      rw [if_neg (by simpa using hw.1 rfl)]
      exact if_pos hlen
    | quads =>
      rw [if_neg (by simp)]
      have e : (if MeshMode.quads = MeshMode.triangles then 3 else 4) = 4 := by simp
      simp only [newCounts, e] at hlen ⊢
      rw [if_neg (by simpa using hw.2 rfl)]
      exact if_pos hlen

theorem blocks_rec (m : Mesh) (k : ℕ) (l l' : List ℕ) (hl : l.length = m.verticesStride * k)
    (vs : List Vert) :
    blocks m.verticesStride (k + vs.length) (l ++ vs.flatMap m.vrec) =
      blocks m.verticesStride k l ++ vs.map m.vrec := by
  induction k generalizing l with
  | zero =>
    have : l = [] := by simpa using hl
    subst this
    simp only [Nat.zero_add, List.nil_append, blocks]
    induction vs with
    | nil => rfl
    | cons v vs ih =>
      have h := rec_length m v
      rw [List.length_cons, blocks, List.flatMap_cons, List.take_append_of_le_length h.ge,
        List.take_of_length_le h.le, List.drop_append_of_le_length h.ge,
        List.drop_of_length_le h.le, List.nil_append, ih, List.map_cons]
  | succ k ih =>
    rw [Nat.mul_succ] at hl
    have hs : m.verticesStride ≤ l.length := by omega
    rw [show k + 1 + vs.length = (k + vs.length) + 1 by ring, blocks, blocks,
      List.take_append_of_le_length hs, List.drop_append_of_le_length hs,
      ih (l.drop m.verticesStride) (by rw [List.length_drop]; omega), List.cons_append]

/-- The polygons of the extended mesh. -/
theorem faces_plus (h : Base m recs) (D : Delta) (cn : Option ℕ) (ho : D.o = none) :
    faces (m.plus D cn) = faces m ++ D.F.map (List.map m.vrec) := by
  have h1 : m.vertices.length = m.verticesStride * recs.length := by
    rw [h.inv.vertices, length_flatMap_flat]; rfl
  have h2 := h.inv.count
  rw [h.inv.closed h.closed, Nat.add_zero] at h2
  have hs : 0 < m.verticesStride := by unfold Mesh.verticesStride; split_ifs <;> simp
  have hst : (m.plus D cn).verticesStride = m.verticesStride := rfl
  have hnb : (m.plus D cn).verticesNb = recs.length + D.F.flatten.length := by
    unfold Mesh.verticesNb
    rw [hst]
    simp only [Mesh.plus, Delta.cur, ho, Option.map_none, Option.getD_none, List.append_nil,
      List.length_append, length_flatMap_rec, h1]
    rw [← Nat.mul_add, Nat.mul_div_cancel_left _ hs]
  unfold Spec.faces
  rw [hst, hnb, h.inv.verticesNb]
  simp only [Mesh.plus, Delta.cur, ho, Option.map_none, Option.getD_none, List.append_nil]
  rw [blocks_rec m _ _ [] h1, splits_append]
  · congr 1
    have : D.F.map List.length = (D.F.map (List.map m.vrec)).map List.length := by
      simp [List.map_map, Function.comp_def]
    rw [this, List.map_flatten, splits_flatten]
  · have : (blocks m.verticesStride recs.length m.vertices).length = recs.length := by
      have := congrArg List.length (blocks_map_length m.verticesStride recs.length m.vertices h1.ge)
      simpa using this
    rw [this, h2]

/-- The program turns the additions `D` into `D'` and returns `a`, whatever the current normal.
Not in /repo: specification. -/
def Does {α : Type} (m : Mesh) (x : MeshM α) (D : Delta) (a : α) (D' : Delta) : Prop :=
  ∀ cn, ∃ cn', x (m.plus D cn) = (.ok a, m.plus D' cn')

theorem Does.bind {α β : Type} {m : Mesh} {x : MeshM α} {f : α → MeshM β} {D D' D'' : Delta}
    {a : α} {b : β} (h : Does m x D a D') (h' : Does m (f a) D' b D'') :
    Does m (x >>= f) D b D'' := by
  intro cn
  obtain ⟨cn', e⟩ := h cn
  obtain ⟨cn'', e'⟩ := h' cn'
  refine ⟨cn'', ?_⟩
  show MeshM.bind x f _ = _
  unfold MeshM.bind
  rw [e]
  exact e'

theorem Does.pure {α : Type} {m : Mesh} (a : α) (D : Delta) :
    Does m (Pure.pure a) D a D := fun cn => ⟨cn, rfl⟩

theorem Does.position (h : Base m recs) (D : Delta) (x y z : ℝ) :
    Does m (Mesh.position x y z) D (m.positionsNb + D.P.length)
      { D with P := D.P ++ [(x, y, z)] } := fun cn => ⟨cn, plus_position h D cn x y z⟩

theorem Does.normal (h : Base m recs) (D : Delta) (x y z : ℝ)
    (hu : x * x + y * y + z * z = 1) :
    Does m (Mesh.normal x y z) D (m.normalsNb + D.N.length)
      { D with N := D.N ++ [(x, y, z)] } := fun cn => ⟨_, plus_normal h D cn x y z hu⟩

theorem Does.begin (D : Delta) (mode : MeshMode) (ho : D.o = none) :
    Does m (Mesh.begin mode) D () { D with o := some (mode, []) } :=
  fun cn => ⟨cn, plus_begin D cn mode ho⟩

theorem Does.end (h : Base m recs) (D : Delta) (mode : MeshMode) (l : List Vert)
    (ho : D.o = some (mode, l)) (hw : Whole mode l.length) :
    Does m Mesh.end D () { D with F := D.F ++ group mode l, o := none } :=
  fun cn => ⟨cn, plus_end h D cn mode l ho hw⟩

theorem Does.assert {p : Prop} (D : Delta) (hp : p) : Does m (MeshM.assert p) D () D := by
  intro cn
  refine ⟨cn, ?_⟩
  unfold MeshM.assert MeshM.lift
  rw [if_pos hp]

theorem Does.lift {α : Type} {r : Res α} {a : α} (D : Delta) (hr : r = .ok a) :
    Does m (MeshM.lift r) D a D := by
  intro cn; subst hr; exact ⟨cn, rfl⟩

theorem Does.get {α : Type} (f : Mesh → α) (D : Delta) (a : α)
    (ha : ∀ cn, f (m.plus D cn) = a) : Does m (MeshM.get f) D a D := by
  intro cn; exact ⟨cn, by unfold MeshM.get; rw [ha]⟩

/-- The vertex refers to an added position and an added normal. Not in /repo: specification. -/
def Valid (m : Mesh) (D : Delta) (v : Vert) : Prop :=
  v.p < m.positionsNb + D.P.length ∧ v.n < m.normalsNb + D.N.length

theorem Does.xAddVert (h : Base m recs) (D : Delta) (v : Vert) (mode : MeshMode) (l : List Vert)
    (ho : D.o = some (mode, l)) (hv : Valid m D v) :
    Does m (xAddVert v) D () { D with o := some (mode, l ++ [v]) } := by
  intro cn
  refine ⟨some v.n, ?_⟩
  show MeshM.bind (Mesh.normalIdx v.n) (fun _ => Mesh.vertexIdx v.p) _ = _
  unfold MeshM.bind
  rw [plus_normalIdx h D cn v.n hv.2]
  exact plus_vertexIdx h D v.p v.n mode l ho hv.1

/-- Adding vertices one after the other. -/
theorem Does.xAddVerts {β : Type} (h : Base m recs) (f : β → Vert) (vs : List β) (D : Delta)
    (mode : MeshMode) (l : List Vert) (ho : D.o = some (mode, l))
    (hv : ∀ b ∈ vs, Valid m D (f b)) :
    Does m (vs.forM fun b => AlMath.xAddVert (f b)) D () { D with o := some (mode, l ++ vs.map f) } := by
  induction vs generalizing D l with
  | nil =>
    have : D = { D with o := some (mode, l ++ List.map f []) } := by
      cases D; simp_all
    exact this ▸ Does.pure () D
  | cons b vs ih =>
    have h1 := Does.xAddVert h D (f b) mode l ho (hv b (by simp))
    have h2 := ih { D with o := some (mode, l ++ [f b]) } (l ++ [f b]) rfl
      (fun c hc => hv c (by simp [hc]))
    simp only [List.append_assoc] at h2
    exact h1.bind h2

end AlMath
