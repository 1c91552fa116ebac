import Verif.Model.Mesh

/-!
C41: mesh buffers are always consistent. C42: rejected calls.
-/

namespace AlMath

namespace Spec

/-- A call of the mesh-building interface. Not in /repo: specification. -/
inductive MeshCall where
  | position (x y z : ℝ)
  | normal (x y z : ℝ)
  | normalIdx (index : ℕ)
  | texCoord (x y : ℝ)
  | texCoordIdx (index : ℕ)
  | begin (mode : MeshMode)
  | vertexIdx (index : ℕ)
  | vertex (x y z : ℝ)
  | endCall

/-- Outcome of a call (with the returned index, if any) and the new mesh. Not in /repo:
specification. -/
noncomputable def meshCall (m : Mesh) : MeshCall → Res (Option ℕ) × Mesh
  | .position x y z => ((Mesh.position x y z m).1.map some, (Mesh.position x y z m).2)
  | .normal x y z => ((Mesh.normal x y z m).1.map some, (Mesh.normal x y z m).2)
  | .normalIdx i => ((Mesh.normalIdx i m).1.map fun _ => none, (Mesh.normalIdx i m).2)
  | .texCoord x y => ((Mesh.texCoord x y m).1.map some, (Mesh.texCoord x y m).2)
  | .texCoordIdx i => ((Mesh.texCoordIdx i m).1.map fun _ => none, (Mesh.texCoordIdx i m).2)
  | .begin mode => ((Mesh.begin mode m).1.map fun _ => none, (Mesh.begin mode m).2)
  | .vertexIdx i => ((Mesh.vertexIdx i m).1.map fun _ => none, (Mesh.vertexIdx i m).2)
  | .vertex x y z => ((Mesh.vertex x y z m).1.map fun _ => none, (Mesh.vertex x y z m).2)
  | .endCall => ((Mesh.end m).1.map fun _ => none, (Mesh.end m).2)

/-- The documented precondition on normals: unit length up to the tolerance. Not in /repo:
specification. -/
def UnitNormal : MeshCall → Prop
  | .normal x y z => |x ^ 2 + y ^ 2 + z ^ 2 - 1| ≤ 1e-5
  | _ => True

/-- The mesh after a sequence of calls on an empty mesh, accepted or rejected. Not in /repo:
specification. -/
noncomputable def meshAfter (tex : Bool) (h : List MeshCall) : Mesh :=
  h.foldl (fun m c => (meshCall m c).2) (Mesh.new tex)

/-- Consistency of the buffers, as seen by a reader of the mesh: whole coordinates only; the
`k`-th vertex record refers to existing positions, normals and texture coordinates; when no
primitive is open, the polygon counts add up to the number of vertices. Not in /repo:
specification. -/
structure Consistent (m : Mesh) : Prop where
  positions : m.positions.length = 3 * m.positionsNb
  normals : m.normals.length = 3 * m.normalsNb
  texCoords : m.texCoords.length = 2 * m.texCoordsNb
  vertices : m.vertices.length = m.verticesStride * m.verticesNb
  stride : m.verticesStride = if m.withTexCoords then 3 else 2
  position_ref : ∀ k < m.verticesNb,
    ∃ p, m.vertices[m.verticesStride * k]? = some p ∧ p < m.positionsNb
  normal_ref : ∀ k < m.verticesNb,
    ∃ n, m.vertices[m.verticesStride * k + 1]? = some n ∧ n < m.normalsNb
  texCoord_ref : m.withTexCoords = true → ∀ k < m.verticesNb,
    ∃ t, m.vertices[m.verticesStride * k + 2]? = some t ∧ t < m.texCoordsNb
  counts : m.currentMode = none → m.vcounts.sum = m.verticesNb
  counts_pos : ∀ c ∈ m.vcounts, 0 < c

/-- Consecutive blocks of `n` elements. Not in /repo: specification. -/
def blocks {α : Type} (n : ℕ) : ℕ → List α → List (List α)
  | 0, _ => []
  | k + 1, l => l.take n :: blocks n k (l.drop n)

/-- Consecutive blocks of given sizes. Not in /repo: specification. -/
def splits {α : Type} : List ℕ → List α → List (List α)
  | [], _ => []
  | c :: cs, l => l.take c :: splits cs (l.drop c)

/-- The polygons described by a mesh, in order: for each the list of its vertex records. Not in
/repo: specification. -/
def faces (m : Mesh) : List (List (List ℕ)) :=
  splits m.vcounts (blocks m.verticesStride m.verticesNb m.vertices)

/-- The polygons described by a list of vertices in each mode. Not in /repo: specification. -/
def group {α : Type} (mode : MeshMode) (vs : List α) : List (List α) :=
  match mode with
  | .polygon => if vs.length = 0 then [] else [vs]
  | .triangles => blocks 3 (vs.length / 3) vs
  | .quads => blocks 4 (vs.length / 4) vs

end Spec

open Spec

/-! ### Vertex records -/

/-- A vertex record in the buffer: helper of the proofs. Not in /repo: specification. -/
structure Vtx where
  p : ℕ
  n : ℕ
  t : ℕ

/-- The buffer content of a vertex record. Not in /repo: specification. -/
def Vtx.flat (tex : Bool) (v : Vtx) : List ℕ := if tex then [v.p, v.n, v.t] else [v.p, v.n]

theorem Vtx.length_flat (tex : Bool) (v : Vtx) : (v.flat tex).length = if tex then 3 else 2 := by
  cases tex <;> rfl

theorem length_flatMap_flat (tex : Bool) (l : List Vtx) :
    (l.flatMap (Vtx.flat tex)).length = (if tex then 3 else 2) * l.length := by
  induction l with
  | nil => simp
  | cons v l ih => rw [List.flatMap_cons, List.length_append, ih, Vtx.length_flat, List.length_cons]; ring

theorem getElem?_flatMap_flat (tex : Bool) (l : List Vtx) (k : ℕ) (hk : k < l.length) (j : ℕ)
    (hj : j < if tex then 3 else 2) :
    (l.flatMap (Vtx.flat tex))[(if tex then 3 else 2) * k + j]? = (l[k].flat tex)[j]? := by
  induction l generalizing k with
  | nil => simp at hk
  | cons v l ih =>
    rw [List.flatMap_cons]
    cases k with
    | zero =>
      rw [List.getElem?_append_left (by rw [Vtx.length_flat]; omega)]
      simp
    | succ k =>
      rw [List.getElem?_append_right (by rw [Vtx.length_flat]; nlinarith), Vtx.length_flat]
      have e : (if tex then 3 else 2) * (k + 1) + j - (if tex then 3 else 2) =
          (if tex then 3 else 2) * k + j := by cases tex <;> simp <;> omega
      rw [e, ih k (by simpa using hk)]
      simp

theorem blocks_flat (tex : Bool) (l : List Vtx) :
    blocks (if tex then 3 else 2) l.length (l.flatMap (Vtx.flat tex)) = l.map (Vtx.flat tex) := by
  induction l with
  | nil => rfl
  | cons v l ih =>
    have h := Vtx.length_flat tex v
    rw [List.length_cons, blocks, List.flatMap_cons, List.take_append_of_le_length h.ge,
      List.take_of_length_le h.le, List.drop_append_of_le_length h.ge,
      List.drop_of_length_le h.le, List.nil_append, ih, List.map_cons]

theorem splits_append {α : Type} (cs ds : List ℕ) (l l' : List α) (h : l.length = cs.sum) :
    splits (cs ++ ds) (l ++ l') = splits cs l ++ splits ds l' := by
  induction cs generalizing l with
  | nil => simp at h; simp [h, splits]
  | cons c cs ih =>
    rw [List.sum_cons] at h
    have hc : c ≤ l.length := by omega
    simp only [List.cons_append, splits, List.take_append_of_le_length hc,
      List.drop_append_of_le_length hc]
    rw [ih (l.drop c) (by rw [List.length_drop]; omega)]

theorem splits_replicate {α : Type} (n k : ℕ) (l : List α) :
    splits (List.replicate k n) l = blocks n k l := by
  induction k generalizing l with
  | zero => rfl
  | succ k ih => rw [List.replicate_succ, splits, blocks, ih]

theorem map_blocks {α β : Type} (f : α → β) (n k : ℕ) (l : List α) :
    (blocks n k l).map (List.map f) = blocks n k (l.map f) := by
  induction k generalizing l with
  | zero => rfl
  | succ k ih => simp [blocks, ih]

theorem map_group {α β : Type} (f : α → β) (mode : MeshMode) (l : List α) :
    (group mode l).map (List.map f) = group mode (l.map f) := by
  cases mode <;> simp [group, map_blocks]
  split_ifs <;> simp

/-- The invariant of the mesh builder, in terms of vertex records: helper of the proofs. Not in
/repo: specification. -/
structure MeshInv (m : Mesh) (recs : List Vtx) : Prop where
  positions : 3 ∣ m.positions.length
  normals : 3 ∣ m.normals.length
  texCoords : 2 ∣ m.texCoords.length
  vertices : m.vertices = recs.flatMap (Vtx.flat m.withTexCoords)
  p_lt : ∀ v ∈ recs, v.p < m.positionsNb
  n_lt : ∀ v ∈ recs, v.n < m.normalsNb
  t_lt : m.withTexCoords = true → ∀ v ∈ recs, v.t < m.texCoordsNb
  count : recs.length = m.vcounts.sum + m.currentVcount
  closed : m.currentMode = none → m.currentVcount = 0
  normal_lt : ∀ n, m.currentNormal = some n → n < m.normalsNb
  texCoord_lt : ∀ n, m.currentTexCoord = some n → n < m.texCoordsNb
  counts_pos : ∀ c ∈ m.vcounts, 0 < c

theorem meshInv_new (tex : Bool) : MeshInv (Mesh.new tex) [] := by
  constructor <;> simp [Mesh.new]

theorem MeshInv.verticesNb {m : Mesh} {recs : List Vtx} (h : MeshInv m recs) :
    m.verticesNb = recs.length := by
  unfold Mesh.verticesNb Mesh.verticesStride
  rw [h.vertices, length_flatMap_flat]
  split_ifs <;> simp

theorem MeshInv.consistent {m : Mesh} {recs : List Vtx} (h : MeshInv m recs) : Consistent m := by
  have hN := h.verticesNb
  have ref : ∀ k (hk : k < recs.length) j, j < (if m.withTexCoords then 3 else 2) →
      m.vertices[m.verticesStride * k + j]? = (recs[k].flat m.withTexCoords)[j]? := by
    intro k hk j hj
    rw [h.vertices]
    exact getElem?_flatMap_flat _ recs k hk j hj
  constructor
  · have := h.positions; unfold Mesh.positionsNb; omega
  · have := h.normals; unfold Mesh.normalsNb; omega
  · have := h.texCoords; unfold Mesh.texCoordsNb; omega
  · rw [hN, h.vertices, length_flatMap_flat]; rfl
  · rfl
  · intro k hk
    rw [hN] at hk
    refine ⟨recs[k].p, ?_, h.p_lt _ (List.getElem_mem hk)⟩
    have := ref k hk 0 (by split_ifs <;> omega)
    rw [add_zero] at this
    rw [this]; unfold Vtx.flat; split_ifs <;> rfl
  · intro k hk
    rw [hN] at hk
    refine ⟨recs[k].n, ?_, h.n_lt _ (List.getElem_mem hk)⟩
    rw [ref k hk 1 (by split_ifs <;> omega)]; unfold Vtx.flat; split_ifs <;> rfl
  · intro ht k hk
    rw [hN] at hk
    refine ⟨recs[k].t, ?_, h.t_lt ht _ (List.getElem_mem hk)⟩
    rw [ref k hk 2 (by simp [ht])]; unfold Vtx.flat; rw [ht]; rfl
  · intro hc; rw [hN, h.count, h.closed hc]; rfl
  · exact h.counts_pos

theorem positionsNb_append (m : Mesh) (x y z : ℝ) :
    Mesh.positionsNb { m with positions := m.positions ++ [x, y, z] } = m.positionsNb + 1 := by
  simp only [Mesh.positionsNb, List.length_append, List.length_cons, List.length_nil]; omega

theorem normalsNb_append (m : Mesh) (x y z : ℝ) :
    Mesh.normalsNb { m with normals := m.normals ++ [x, y, z] } = m.normalsNb + 1 := by
  simp only [Mesh.normalsNb, List.length_append, List.length_cons, List.length_nil]; omega

theorem texCoordsNb_append (m : Mesh) (x y : ℝ) :
    Mesh.texCoordsNb { m with texCoords := m.texCoords ++ [x, y] } = m.texCoordsNb + 1 := by
  simp only [Mesh.texCoordsNb, List.length_append, List.length_cons, List.length_nil]; omega

theorem MeshInv.position {m : Mesh} {recs : List Vtx} (h : MeshInv m recs) (x y z : ℝ) :
    MeshInv { m with positions := m.positions ++ [x, y, z] } recs := by
  refine ⟨?_, h.normals, h.texCoords, h.vertices, ?_, h.n_lt, h.t_lt, h.count, h.closed,
    h.normal_lt, h.texCoord_lt, h.counts_pos⟩
  · have := h.positions
    simp only [List.length_append, List.length_cons, List.length_nil]; omega
  · intro v hv; rw [positionsNb_append]; have := h.p_lt v hv; omega

/-- The mesh after adding the vertex `p` with the current normal and texture coordinate. Not in
/repo: specification. -/
def Mesh.withVertex (m : Mesh) (v : Vtx) : Mesh :=
  { m with vertices := m.vertices ++ v.flat m.withTexCoords,
           currentVcount := m.currentVcount + 1 }

theorem vertexIdx_ok {m : Mesh} {p n t : ℕ} (hm : m.currentMode ≠ none) (hp : p < m.positionsNb)
    (hn : m.currentNormal = some n) (ht : m.withTexCoords = true → m.currentTexCoord = some t) :
    Mesh.vertexIdx p m = (.ok (), m.withVertex ⟨p, n, t⟩) := by
  unfold Mesh.vertexIdx Mesh.withVertex Vtx.flat
  rw [if_neg hm, if_neg (by omega), hn]
  cases hw : m.withTexCoords
  · simp
  · simp [ht hw]

theorem vertexIdx_cases (m : Mesh) (p : ℕ) :
    Mesh.vertexIdx p m = (.throws, m) ∨
    ∃ n t, m.currentMode ≠ none ∧ p < m.positionsNb ∧ m.currentNormal = some n ∧
      (m.withTexCoords = true → m.currentTexCoord = some t) ∧
      Mesh.vertexIdx p m = (.ok (), m.withVertex ⟨p, n, t⟩) := by
  by_cases hm : m.currentMode = none
  · left; simp [Mesh.vertexIdx, hm]
  by_cases hp : p < m.positionsNb
  swap
  · left; simp [Mesh.vertexIdx, hm, not_lt.1 hp]
  cases hn : m.currentNormal with
  | none => left; simp [Mesh.vertexIdx, hm, hn, hp]
  | some n =>
    cases ht : m.currentTexCoord with
    | none =>
      cases hw : m.withTexCoords with
      | true => left; simp [Mesh.vertexIdx, hm, hn, ht, hw, hp]
      | false =>
        exact Or.inr ⟨n, 0, hm, hp, rfl, by simp, vertexIdx_ok hm hp hn (by simp [hw])⟩
    | some t => exact Or.inr ⟨n, t, hm, hp, rfl, fun _ => rfl, vertexIdx_ok hm hp hn fun _ => ht⟩

theorem MeshInv.withVertex {m : Mesh} {recs : List Vtx} (h : MeshInv m recs) {p n t : ℕ}
    (hm : m.currentMode ≠ none) (hp : p < m.positionsNb) (hn : n < m.normalsNb)
    (ht : m.withTexCoords = true → t < m.texCoordsNb) :
    MeshInv (m.withVertex ⟨p, n, t⟩) (recs ++ [⟨p, n, t⟩]) := by
  refine ⟨h.positions, h.normals, h.texCoords, ?_, ?_, ?_, ?_, ?_, fun hc => absurd hc hm,
    h.normal_lt, h.texCoord_lt, h.counts_pos⟩
  · simp [Mesh.withVertex, h.vertices]
  · intro v hv
    rcases List.mem_append.1 hv with hv | hv
    · exact h.p_lt v hv
    · rw [List.mem_singleton.1 hv]; exact hp
  · intro v hv
    rcases List.mem_append.1 hv with hv | hv
    · exact h.n_lt v hv
    · rw [List.mem_singleton.1 hv]; exact hn
  · intro hw v hv
    rcases List.mem_append.1 hv with hv | hv
    · exact h.t_lt hw v hv
    · rw [List.mem_singleton.1 hv]; exact ht hw
  · simp [Mesh.withVertex, h.count]; ring

theorem MeshInv.vertexIdx {m : Mesh} {recs : List Vtx} (h : MeshInv m recs) (p : ℕ) :
    ∃ new, MeshInv (Mesh.vertexIdx p m).2 (recs ++ new) ∧ (Mesh.vertexIdx p m).1 ≠ .ub := by
  rcases vertexIdx_cases m p with e | ⟨n, t, hm, hp, hn, ht, e⟩
  · rw [e]; exact ⟨[], by simpa using h, by simp⟩
  · rw [e]
    exact ⟨[⟨p, n, t⟩], h.withVertex hm hp (h.normal_lt n hn)
      fun hw => h.texCoord_lt t (ht hw), by simp⟩

/-- The counts added by `end` in each mode. Not in /repo: specification. -/
def newCounts (mode : MeshMode) (k : ℕ) : List ℕ :=
  match mode with
  | .polygon => if k = 0 then [] else [k]
  | .triangles => List.replicate (k / 3) 3
  | .quads => List.replicate (k / 4) 4

theorem sum_newCounts (mode : MeshMode) (k : ℕ) (h3 : mode = .triangles → k % 3 = 0)
    (h4 : mode = .quads → k % 4 = 0) : (newCounts mode k).sum = k := by
  cases mode
  · simp only [newCounts]; split_ifs with h <;> simp [h]
  · have := h3 rfl; simp [newCounts]; omega
  · have := h4 rfl; simp [newCounts]; omega

theorem splits_newCounts {α : Type} (mode : MeshMode) (l : List α) :
    splits (newCounts mode l.length) l = group mode l := by
  cases mode
  · simp only [newCounts, group]; split_ifs with h
    · rfl
    · simp [splits]
  · simp only [newCounts, group, splits_replicate]
  · simp only [newCounts, group, splits_replicate]

/-- The mesh after `end`. Not in /repo: specification. -/
def Mesh.closeWith (m : Mesh) (cs : List ℕ) : Mesh :=
  { m with vcounts := m.vcounts ++ cs, currentMode := none, currentVcount := 0 }

theorem end_ok {m : Mesh} {recs : List Vtx} (h : MeshInv m recs) {mode : MeshMode}
    (hm : m.currentMode = some mode) (h3 : mode = .triangles → m.currentVcount % 3 = 0)
    (h4 : mode = .quads → m.currentVcount % 4 = 0) :
    Mesh.end m = (.ok (), m.closeWith (newCounts mode m.currentVcount)) := by
  have hl : m.vertices.length = m.verticesStride * recs.length := by
    rw [h.vertices, length_flatMap_flat]; rfl
  have hs := sum_newCounts mode m.currentVcount h3 h4
  have hc := h.count
  have key : (m.vcounts ++ newCounts mode m.currentVcount).sum * m.verticesStride =
      m.vertices.length := by
    rw [List.sum_append, hs, hl, ← hc, mul_comm]
  unfold Mesh.end Mesh.closeWith
  rw [hm]
  dsimp only
  by_cases h0 : m.currentVcount = 0
  · rw [if_neg (by simpa using h0)]
    have e : newCounts mode m.currentVcount = [] := by
      rw [h0]; cases mode <;> rfl
    rw [e, List.append_nil] at key ⊢
    exact if_pos key
  · rw [if_pos h0]
    cases mode with
    | polygon =>
      rw [if_pos rfl]
      simp only [newCounts, if_neg h0] at key ⊢
      exact if_pos key
    | triangles =>
      rw [if_neg (by simp)]
      simp only [newCounts, if_true] at key ⊢
      rw [if_neg (by simpa using h3 rfl)]
      exact if_pos key
    | quads =>
      rw [if_neg (by simp)]
      have e : (if MeshMode.quads = MeshMode.triangles then 3 else 4) = 4 := by simp
      simp only [newCounts, e] at key ⊢
      rw [if_neg (by simpa using h4 rfl)]
      exact if_pos key

theorem end_cases {m : Mesh} {recs : List Vtx} (h : MeshInv m recs) :
    Mesh.end m = (.throws, m) ∨
    ∃ mode, m.currentMode = some mode ∧ (mode = .triangles → m.currentVcount % 3 = 0) ∧
      (mode = .quads → m.currentVcount % 4 = 0) ∧
      Mesh.end m = (.ok (), m.closeWith (newCounts mode m.currentVcount)) := by
  cases hm : m.currentMode with
  | none => left; simp [Mesh.end, hm]
  | some mode =>
    by_cases hc : (mode = .triangles → m.currentVcount % 3 = 0) ∧
        (mode = .quads → m.currentVcount % 4 = 0)
    · exact Or.inr ⟨mode, rfl, hc.1, hc.2, end_ok h hm hc.1 hc.2⟩
    · left
      unfold Mesh.end
      rw [hm]
      cases mode with
      | polygon => simp at hc
      | triangles =>
        have h1 : ¬ m.currentVcount % 3 = 0 := by simpa using hc
        have h0 : m.currentVcount ≠ 0 := by rintro h0; rw [h0] at h1; simp at h1
        simp [h0, h1]
      | quads =>
        have h1 : ¬ m.currentVcount % 4 = 0 := by simpa using hc
        have h0 : m.currentVcount ≠ 0 := by rintro h0; rw [h0] at h1; simp at h1
        simp [h0, h1]

theorem newCounts_pos (mode : MeshMode) (k : ℕ) : ∀ c ∈ newCounts mode k, 0 < c := by
  intro c hc
  cases mode
  · simp only [newCounts] at hc
    split_ifs at hc with h
    · simp at hc
    · rw [List.mem_singleton.1 hc]; omega
  · rw [(List.mem_replicate.1 hc).2]; omega
  · rw [(List.mem_replicate.1 hc).2]; omega

theorem MeshInv.end {m : Mesh} {recs : List Vtx} (h : MeshInv m recs) :
    MeshInv (Mesh.end m).2 recs ∧ (Mesh.end m).1 ≠ .ub := by
  rcases end_cases h with e | ⟨mode, hm, h3, h4, e⟩
  · rw [e]; exact ⟨h, by simp⟩
  · rw [e]
    refine ⟨⟨h.positions, h.normals, h.texCoords, h.vertices, h.p_lt, h.n_lt, h.t_lt, ?_,
      fun _ => rfl, h.normal_lt, h.texCoord_lt, ?_⟩, by simp⟩
    · simp [Mesh.closeWith, sum_newCounts mode _ h3 h4, h.count]
    · intro c hc
      rcases List.mem_append.1 hc with hc | hc
      · exact h.counts_pos c hc
      · exact newCounts_pos _ _ c hc

theorem MeshInv.normalRelease {m : Mesh} {recs : List Vtx} (h : MeshInv m recs) (x y z : ℝ) :
    MeshInv (Mesh.normalRelease x y z m).2 recs := by
  have e : Mesh.normalRelease x y z m = (.ok (m.normalsNb + 1 - 1),
      { m with normals := m.normals ++ [x, y, z],
               currentNormal := some (m.normalsNb + 1 - 1) }) := by
    unfold Mesh.normalRelease
    rw [← normalsNb_append m x y z]
    rfl
  rw [e]
  have hN : Mesh.normalsNb
      { m with normals := m.normals ++ [x, y, z], currentNormal := some (m.normalsNb + 1 - 1) } =
      m.normalsNb + 1 := normalsNb_append m x y z
  refine ⟨h.positions, ?_, h.texCoords, h.vertices, h.p_lt, ?_, h.t_lt, h.count, h.closed, ?_,
    h.texCoord_lt, h.counts_pos⟩
  · have := h.normals
    simp only [List.length_append, List.length_cons, List.length_nil]; omega
  · intro v hv; rw [hN]; have := h.n_lt v hv; omega
  · intro n hn; rw [hN]; simp at hn; omega

/-- Every call keeps the invariant, only appends records, and is not undefined. -/
theorem MeshInv.call {m : Mesh} {recs : List Vtx} (h : MeshInv m recs) (c : MeshCall)
    (hc : UnitNormal c) :
    ∃ new, MeshInv (meshCall m c).2 (recs ++ new) ∧ (meshCall m c).1 ≠ .ub := by
  cases c with
  | position x y z => exact ⟨[], by rw [List.append_nil]; exact h.position x y z,
    by simp [meshCall, Mesh.position]⟩
  | normal x y z =>
    have hu : |x * x + y * y + z * z - 1| ≤ 1e-5 := by
      have : x * x + y * y + z * z = x ^ 2 + y ^ 2 + z ^ 2 := by ring
      rw [this]; exact hc
    have e : Mesh.normal x y z m = Mesh.normalRelease x y z m := by
      unfold Mesh.normal; rw [if_neg (not_not.2 hu)]; rfl
    simp only [meshCall, e]
    exact ⟨[], by rw [List.append_nil]; exact h.normalRelease x y z,
      by simp [Mesh.normalRelease]⟩
  | normalIdx i =>
    simp only [meshCall, Mesh.normalIdx]
    split_ifs with hi
    · exact ⟨[], by simpa using h, by simp⟩
    · refine ⟨[], ?_, by simp⟩
      rw [List.append_nil]
      exact ⟨h.positions, h.normals, h.texCoords, h.vertices, h.p_lt, h.n_lt, h.t_lt, h.count,
        h.closed, fun n hn => by
          have e : i = n := by simpa using hn
          have : i < m.normalsNb := not_le.1 hi
          rw [← e]; exact this, h.texCoord_lt, h.counts_pos⟩
  | texCoord x y =>
    have e : Mesh.texCoord x y m = (.ok (m.texCoordsNb + 1 - 1),
        { m with texCoords := m.texCoords ++ [x, y],
                 currentTexCoord := some (m.texCoordsNb + 1 - 1) }) := by
      unfold Mesh.texCoord
      rw [← texCoordsNb_append m x y]
      rfl
    simp only [meshCall, e]
    refine ⟨[], ?_, by simp⟩
    rw [List.append_nil]
    have hN : Mesh.texCoordsNb
        { m with texCoords := m.texCoords ++ [x, y],
                 currentTexCoord := some (m.texCoordsNb + 1 - 1) } = m.texCoordsNb + 1 :=
      texCoordsNb_append m x y
    refine ⟨h.positions, h.normals, ?_, h.vertices, h.p_lt, h.n_lt, ?_, h.count, h.closed,
      h.normal_lt, ?_, h.counts_pos⟩
    · have := h.texCoords
      simp only [List.length_append, List.length_cons, List.length_nil]; omega
    · intro hw v hv; rw [hN]; have := h.t_lt hw v hv; omega
    · intro n hn; rw [hN]; simp at hn; omega
  | texCoordIdx i =>
    simp only [meshCall, Mesh.texCoordIdx]
    split_ifs with hi
    · exact ⟨[], by simpa using h, by simp⟩
    · refine ⟨[], ?_, by simp⟩
      rw [List.append_nil]
      exact ⟨h.positions, h.normals, h.texCoords, h.vertices, h.p_lt, h.n_lt, h.t_lt, h.count,
        h.closed, h.normal_lt, fun n hn => by
          have e : i = n := by simpa using hn
          have : i < m.texCoordsNb := not_le.1 hi
          rw [← e]; exact this, h.counts_pos⟩
  | begin mode =>
    simp only [meshCall, Mesh.begin]
    split_ifs with h1 h2
    · exact ⟨[], by simpa using h, by simp⟩
    · exact absurd (h.closed (not_not.1 h1)) h2
    · refine ⟨[], ?_, by simp⟩
      rw [List.append_nil]
      exact ⟨h.positions, h.normals, h.texCoords, h.vertices, h.p_lt, h.n_lt, h.t_lt, h.count,
        fun hc => by simp at hc, h.normal_lt, h.texCoord_lt, h.counts_pos⟩
  | vertexIdx i =>
    obtain ⟨new, h1, h2⟩ := h.vertexIdx i
    refine ⟨new, h1, ?_⟩
    simp only [meshCall]
    cases hr : (Mesh.vertexIdx i m).1 <;> simp_all
  | vertex x y z =>
    simp only [meshCall, Mesh.vertex]
    split_ifs with h1
    · exact ⟨[], by simpa using h, by simp⟩
    · have e : MeshM.bind (Mesh.position x y z) Mesh.vertexIdx m =
          Mesh.vertexIdx (Mesh.positionsNb { m with positions := m.positions ++ [x, y, z] } - 1)
            { m with positions := m.positions ++ [x, y, z] } := rfl
      rw [e]
      obtain ⟨new, h1, h2⟩ := (h.position x y z).vertexIdx
        (Mesh.positionsNb { m with positions := m.positions ++ [x, y, z] } - 1)
      refine ⟨new, h1, ?_⟩
      cases hr : (Mesh.vertexIdx
        (Mesh.positionsNb { m with positions := m.positions ++ [x, y, z] } - 1)
        { m with positions := m.positions ++ [x, y, z] }).1 <;> simp_all
  | endCall =>
    refine ⟨[], by rw [List.append_nil]; exact h.end.1, ?_⟩
    have := h.end.2
    simp only [meshCall]
    cases hr : (Mesh.end m).1 <;> simp_all

theorem meshInv_after (tex : Bool) (h : List MeshCall) (hu : ∀ c ∈ h, UnitNormal c) :
    ∃ recs, MeshInv (meshAfter tex h) recs := by
  induction h using List.reverseRecOn with
  | nil => exact ⟨[], meshInv_new tex⟩
  | append_singleton h c ih =>
    obtain ⟨recs, hr⟩ := ih fun c hc => hu c (by simp [hc])
    obtain ⟨new, hn, _⟩ := hr.call c (hu c (by simp))
    refine ⟨recs ++ new, ?_⟩
    unfold meshAfter at hn ⊢
    rw [List.foldl_append]
    exact hn

/-- A call only appends to the buffers: helper of the proofs. Not in /repo: specification. -/
structure Grows (m m' : Mesh) : Prop where
  tex : m'.withTexCoords = m.withTexCoords
  positions : m.positions <+: m'.positions
  normals : m.normals <+: m'.normals
  texCoords : m.texCoords <+: m'.texCoords
  vertices : m.vertices <+: m'.vertices
  vcounts : m.vcounts <+: m'.vcounts

theorem Grows.refl (m : Mesh) : Grows m m :=
  ⟨rfl, List.prefix_refl _, List.prefix_refl _, List.prefix_refl _, List.prefix_refl _,
    List.prefix_refl _⟩

theorem Grows.trans {a b c : Mesh} (h : Grows a b) (h' : Grows b c) : Grows a c :=
  ⟨h'.tex.trans h.tex, h.positions.trans h'.positions, h.normals.trans h'.normals,
    h.texCoords.trans h'.texCoords, h.vertices.trans h'.vertices, h.vcounts.trans h'.vcounts⟩

theorem grows_vertexIdx (m : Mesh) (p : ℕ) : Grows m (Mesh.vertexIdx p m).2 := by
  rcases vertexIdx_cases m p with e | ⟨n, t, _, _, _, _, e⟩
  · rw [e]; exact Grows.refl m
  · rw [e]
    exact ⟨rfl, List.prefix_refl _, List.prefix_refl _, List.prefix_refl _,
      List.prefix_append _ _, List.prefix_refl _⟩

theorem grows_position (m : Mesh) (x y z : ℝ) :
    Grows m { m with positions := m.positions ++ [x, y, z] } :=
  ⟨rfl, List.prefix_append _ _, List.prefix_refl _, List.prefix_refl _, List.prefix_refl _,
    List.prefix_refl _⟩

theorem grows_end {m : Mesh} {recs : List Vtx} (h : MeshInv m recs) :
    Grows m (Mesh.end m).2 := by
  rcases end_cases h with e | ⟨mode, hm, h3, h4, e⟩
  · rw [e]; exact Grows.refl m
  · rw [e]
    exact ⟨rfl, List.prefix_refl _, List.prefix_refl _, List.prefix_refl _,
      List.prefix_refl _, List.prefix_append _ _⟩

theorem grows_call {m : Mesh} {recs : List Vtx} (h : MeshInv m recs) (c : MeshCall) :
    Grows m (meshCall m c).2 := by
  cases c with
  | position x y z => exact grows_position m x y z
  | normal x y z =>
    simp only [meshCall, Mesh.normal]
    split_ifs with h1
    · exact ⟨rfl, List.prefix_refl _, List.prefix_append _ _, List.prefix_refl _,
        List.prefix_refl _, List.prefix_refl _⟩
    · exact Grows.refl m
  | normalIdx i =>
    simp only [meshCall, Mesh.normalIdx]
    split_ifs with h1
    · exact Grows.refl m
    · exact ⟨rfl, List.prefix_refl _, List.prefix_refl _, List.prefix_refl _, List.prefix_refl _,
        List.prefix_refl _⟩
  | texCoord x y =>
    exact ⟨rfl, List.prefix_refl _, List.prefix_refl _, List.prefix_append _ _,
        List.prefix_refl _, List.prefix_refl _⟩
  | texCoordIdx i =>
    simp only [meshCall, Mesh.texCoordIdx]
    split_ifs with h1
    · exact Grows.refl m
    · exact ⟨rfl, List.prefix_refl _, List.prefix_refl _, List.prefix_refl _, List.prefix_refl _,
        List.prefix_refl _⟩
  | begin mode =>
    simp only [meshCall, Mesh.begin]
    split_ifs with h1 h2
    · exact Grows.refl m
    · exact Grows.refl m
    · exact ⟨rfl, List.prefix_refl _, List.prefix_refl _, List.prefix_refl _, List.prefix_refl _,
        List.prefix_refl _⟩
  | vertexIdx i => exact grows_vertexIdx m i
  | vertex x y z =>
    simp only [meshCall, Mesh.vertex]
    split_ifs with h1
    · exact Grows.refl m
    · exact (grows_position m x y z).trans (grows_vertexIdx _ _)
  | endCall => exact grows_end h

theorem splits_append_left {α : Type} (cs ds : List ℕ) (l : List α) :
    splits (cs ++ ds) l = splits cs l ++ splits ds (l.drop cs.sum) := by
  induction cs generalizing l with
  | nil => simp [splits]
  | cons c cs ih => simp [splits, ih]

theorem splits_append_right {α : Type} (cs : List ℕ) (l l' : List α) (h : cs.sum ≤ l.length) :
    splits cs (l ++ l') = splits cs l := by
  induction cs generalizing l with
  | nil => simp [splits]
  | cons c cs ih =>
    rw [List.sum_cons] at h
    have hc : c ≤ l.length := by omega
    simp only [splits, List.take_append_of_le_length hc, List.drop_append_of_le_length hc]
    rw [ih (l.drop c) (by rw [List.length_drop]; omega)]

theorem MeshInv.faces {m : Mesh} {recs : List Vtx} (h : MeshInv m recs) :
    faces m = splits m.vcounts (recs.map (Vtx.flat m.withTexCoords)) := by
  unfold Spec.faces
  rw [h.verticesNb, h.vertices]
  exact congrArg _ (blocks_flat _ _)

/-! ### Properties -/

/-- After every sequence of calls, accepted or rejected, the buffers are consistent, and no
further call is undefined (in particular no assertion of the class fails). -/
theorem C41_consistent (tex : Bool) (h : List MeshCall) (hu : ∀ c ∈ h, UnitNormal c) :
    Consistent (meshAfter tex h) ∧
    ∀ c, UnitNormal c → (meshCall (meshAfter tex h) c).1 ≠ .ub := by
  obtain ⟨recs, hr⟩ := meshInv_after tex h hu
  exact ⟨hr.consistent, fun c hc => (hr.call c hc).choose_spec.2⟩

/-- Every call, accepted or rejected, keeps the content of the buffers and the polygons already
described: it only appends. -/
theorem C41_append_only (tex : Bool) (h : List MeshCall) (hu : ∀ c ∈ h, UnitNormal c)
    (c : MeshCall) (hc : UnitNormal c) :
    (meshAfter tex h).positions <+: (meshAfter tex (h ++ [c])).positions ∧
    (meshAfter tex h).normals <+: (meshAfter tex (h ++ [c])).normals ∧
    (meshAfter tex h).texCoords <+: (meshAfter tex (h ++ [c])).texCoords ∧
    (meshAfter tex h).vertices <+: (meshAfter tex (h ++ [c])).vertices ∧
    faces (meshAfter tex h) <+: faces (meshAfter tex (h ++ [c])) := by
  obtain ⟨recs, hr⟩ := meshInv_after tex h hu
  have e : meshAfter tex (h ++ [c]) = (meshCall (meshAfter tex h) c).2 := by
    unfold meshAfter; rw [List.foldl_append]; rfl
  rw [e]
  have hg := grows_call hr c
  obtain ⟨new, hn, _⟩ := hr.call c hc
  refine ⟨hg.positions, hg.normals, hg.texCoords, hg.vertices, ?_⟩
  obtain ⟨cs, hcs⟩ := hg.vcounts
  rw [hr.faces, hn.faces, ← hcs, hg.tex, splits_append_left, List.map_append,
    splits_append_right _ _ _ (by rw [List.length_map, hr.count]; omega)]
  exact List.prefix_append _ _

/-- A call on a mesh, compiled with `NDEBUG`. The other assertions never fail (`C41_release`).
Not in /repo: specification. -/
noncomputable def meshCallRelease (m : Mesh) : MeshCall → Res (Option ℕ) × Mesh
  | .normal x y z => ((Mesh.normalRelease x y z m).1.map some, (Mesh.normalRelease x y z m).2)
  | c => meshCall m c

/-- The mesh after some calls, compiled with `NDEBUG`. Not in /repo: specification. -/
noncomputable def meshAfterRelease (tex : Bool) (h : List MeshCall) : Mesh :=
  h.foldl (fun m c => (meshCallRelease m c).2) (Mesh.new tex)

theorem MeshInv.callRelease {m : Mesh} {recs : List Vtx} (h : MeshInv m recs) (c : MeshCall) :
    (∃ new, MeshInv (meshCallRelease m c).2 (recs ++ new)) ∧ (meshCallRelease m c).1 ≠ .ub ∧
    Grows m (meshCallRelease m c).2 := by
  by_cases hc : ∃ x y z, c = .normal x y z
  · obtain ⟨x, y, z, rfl⟩ := hc
    exact ⟨⟨[], by rw [List.append_nil]; exact h.normalRelease x y z⟩,
      by simp [meshCallRelease, Mesh.normalRelease, Res.map],
      ⟨rfl, List.prefix_refl _, List.prefix_append _ _, List.prefix_refl _,
        List.prefix_refl _, List.prefix_refl _⟩⟩
  · have e : meshCallRelease m c = meshCall m c := by
      cases c <;> first | rfl | exact absurd ⟨_, _, _, rfl⟩ hc
    have hu : UnitNormal c := by
      cases c <;> first | trivial | exact absurd ⟨_, _, _, rfl⟩ hc
    rw [e]
    obtain ⟨new, hn, hr⟩ := h.call c hu
    exact ⟨⟨new, hn⟩, hr, grows_call h c⟩

/-- Compiled with `NDEBUG`, the buffers are consistent after every sequence of calls, whatever the
normals are; the next call is defined (in particular the remaining assertions would not fail) and
only appends. -/
theorem C41_release (tex : Bool) (h : List MeshCall) (c : MeshCall) :
    Consistent (meshAfterRelease tex h) ∧
    (meshCallRelease (meshAfterRelease tex h) c).1 ≠ .ub ∧
    (meshAfterRelease tex h).positions <+: (meshAfterRelease tex (h ++ [c])).positions ∧
    (meshAfterRelease tex h).normals <+: (meshAfterRelease tex (h ++ [c])).normals ∧
    (meshAfterRelease tex h).texCoords <+: (meshAfterRelease tex (h ++ [c])).texCoords ∧
    (meshAfterRelease tex h).vertices <+: (meshAfterRelease tex (h ++ [c])).vertices ∧
    faces (meshAfterRelease tex h) <+: faces (meshAfterRelease tex (h ++ [c])) := by
  have step : ∀ h c, meshAfterRelease tex (h ++ [c]) =
      (meshCallRelease (meshAfterRelease tex h) c).2 := fun h c => by
    unfold meshAfterRelease; rw [List.foldl_append]; rfl
  have inv : ∀ h, ∃ recs, MeshInv (meshAfterRelease tex h) recs := fun h => by
    induction h using List.reverseRecOn with
    | nil => exact ⟨[], meshInv_new tex⟩
    | append_singleton h c ih =>
      obtain ⟨recs, hr⟩ := ih
      obtain ⟨⟨new, hn⟩, -⟩ := hr.callRelease c
      exact ⟨recs ++ new, by rw [step]; exact hn⟩
  obtain ⟨recs, hr⟩ := inv h
  obtain ⟨⟨new, hn⟩, hub, hg⟩ := hr.callRelease c
  refine ⟨hr.consistent, hub, ?_⟩
  rw [step]
  refine ⟨hg.positions, hg.normals, hg.texCoords, hg.vertices, ?_⟩
  obtain ⟨cs, hcs⟩ := hg.vcounts
  rw [hr.faces, hn.faces, ← hcs, hg.tex, splits_append_left, List.map_append,
    splits_append_right _ _ _ (by rw [List.length_map, hr.count]; omega)]
  exact List.prefix_append _ _

/-- Compiled without `NDEBUG`, giving a normal is a violated assertion exactly when its squared
norm is not within 1e-5 of one; otherwise it does the same as with `NDEBUG`. -/
theorem C41_assertion (m : Mesh) (x y z : ℝ) :
    ((meshCall m (.normal x y z)).1 = .ub ↔ 1e-5 < |x ^ 2 + y ^ 2 + z ^ 2 - 1|) ∧
    (|x ^ 2 + y ^ 2 + z ^ 2 - 1| ≤ 1e-5 →
      meshCall m (.normal x y z) = meshCallRelease m (.normal x y z)) := by
  have e : x * x + y * y + z * z = x ^ 2 + y ^ 2 + z ^ 2 := by ring
  simp only [meshCall, meshCallRelease, Mesh.normal, Mesh.normalRelease, e]
  constructor
  · split_ifs with h
    · simp [Res.map, h]
    · simp [Res.map]; exact not_le.1 h
  · intro h
    rw [if_neg (not_not.2 h)]

example : ∃ m x y z, (meshCall m (.normal x y z)).1 = .ub ∧
    (meshCallRelease m (.normal x y z)).1 ≠ .ub :=
  ⟨Mesh.new false, 1, 1, 0, ((C41_assertion _ _ _ _).1).2 (by norm_num), by
    simp [meshCallRelease, Mesh.normalRelease, Res.map]⟩

/-- The pointer accessors throw exactly when the index is not below the number of elements, and
otherwise give a pointer to the whole element inside its buffer. -/
theorem C41_accessors (tex : Bool) (h : List MeshCall) (hu : ∀ c ∈ h, UnitNormal c) (i : ℕ) :
    let m := meshAfter tex h
    m.positionPtrAt i = (if i < m.positionsNb then .ok (3 * i) else .throws) ∧
    (i < m.positionsNb → 3 * i + 2 < m.positions.length) ∧
    m.normalPtrAt i = (if i < m.normalsNb then .ok (3 * i) else .throws) ∧
    (i < m.normalsNb → 3 * i + 2 < m.normals.length) ∧
    m.texCoordPtrAt i = (if i < m.texCoordsNb then .ok (2 * i) else .throws) ∧
    (i < m.texCoordsNb → 2 * i + 1 < m.texCoords.length) ∧
    m.vertexPtrAt i = (if i < m.verticesNb then .ok (m.verticesStride * i) else .throws) ∧
    (i < m.verticesNb → m.verticesStride * i + m.verticesStride ≤ m.vertices.length) := by
  intro m
  obtain ⟨recs, hr⟩ := meshInv_after tex h hu
  have hc : Consistent m := hr.consistent
  have ptr : ∀ {α : Type} (l : List α) (s nb : ℕ), 0 < s → l.length = s * nb →
      Mesh.ptrAt l (i * s) = (if i < nb then .ok (s * i) else .throws) ∧
      (i < nb → s * i + s ≤ l.length) := by
    intro α l s nb hs hl
    have hi : i * s < l.length ↔ i < nb := by
      rw [hl, mul_comm]; exact Nat.mul_lt_mul_left hs
    refine ⟨?_, ?_⟩
    · unfold Mesh.ptrAt
      by_cases h : i < nb
      · rw [if_pos h, if_pos (hi.2 h), mul_comm]
      · rw [if_neg h, if_neg (fun h' => h (hi.1 h'))]
    · intro h
      rw [hl]
      calc s * i + s = s * (i + 1) := by ring
        _ ≤ s * nb := Nat.mul_le_mul_left s h
  have h1 := ptr m.positions 3 _ (by norm_num) hc.positions
  have h2 := ptr m.normals 3 _ (by norm_num) hc.normals
  have h3 := ptr m.texCoords 2 _ (by norm_num) hc.texCoords
  have h4 := ptr m.vertices m.verticesStride _ (by unfold Mesh.verticesStride; split_ifs <;> simp)
    hc.vertices
  exact ⟨h1.1, fun h => by have := h1.2 h; omega, h2.1, fun h => by have := h2.2 h; omega,
    h3.1, fun h => by have := h3.2 h; omega, h4.1, h4.2⟩

namespace Spec

/-- The calls describing one primitive with given normals, texture coordinates and positions.
Not in /repo: specification. -/
def primitive (tex : Bool) (mode : MeshMode) (vs : List (ℕ × ℕ × ℕ)) : List MeshCall :=
  [.begin mode] ++
  vs.flatMap (fun v => [.normalIdx v.2.1] ++ (if tex then [.texCoordIdx v.2.2] else []) ++
    [.vertexIdx v.1]) ++
  [.endCall]

/-- The record of a vertex in the buffer. Not in /repo: specification. -/
def record (tex : Bool) (v : ℕ × ℕ × ℕ) : List ℕ :=
  if tex then [v.1, v.2.1, v.2.2] else [v.1, v.2.1]

/-- All calls are accepted. Not in /repo: specification. -/
def allAccepted (m : Mesh) : List MeshCall → Prop
  | [] => True
  | c :: cs => (∃ r, (meshCall m c).1 = .ok r) ∧ allAccepted (meshCall m c).2 cs

end Spec

/-- The mesh after setting the current indices to those of `v`. Not in /repo: specification. -/
def Mesh.setCurrent (m : Mesh) (v : ℕ × ℕ × ℕ) : Mesh :=
  { m with currentNormal := some v.2.1,
           currentTexCoord := if m.withTexCoords then some v.2.2 else m.currentTexCoord }

/-- The mesh after setting the indices of `v` and adding it. Not in /repo: specification. -/
def Mesh.putVertex (m : Mesh) (v : ℕ × ℕ × ℕ) : Mesh :=
  (m.setCurrent v).withVertex ⟨v.1, v.2.1, v.2.2⟩

theorem allAccepted_append (m : Mesh) (a b : List MeshCall) :
    allAccepted m (a ++ b) ↔
      allAccepted m a ∧ allAccepted (a.foldl (fun m c => (meshCall m c).2) m) b := by
  induction a generalizing m with
  | nil => simp [allAccepted]
  | cons c a ih => simp only [List.cons_append, allAccepted, ih, List.foldl_cons, and_assoc]

theorem putVertex_calls (m : Mesh) (v : ℕ × ℕ × ℕ) (hm : m.currentMode ≠ none)
    (hp : v.1 < m.positionsNb) (hn : v.2.1 < m.normalsNb)
    (ht : m.withTexCoords = true → v.2.2 < m.texCoordsNb) :
    let cs : List MeshCall := [.normalIdx v.2.1] ++
      (if m.withTexCoords then [.texCoordIdx v.2.2] else []) ++ [.vertexIdx v.1]
    allAccepted m cs ∧ cs.foldl (fun m c => (meshCall m c).2) m = m.putVertex v := by
  intro cs
  have e1 : meshCall m (.normalIdx v.2.1) =
      (.ok none, { m with currentNormal := some v.2.1 }) := by
    simp [meshCall, Mesh.normalIdx, not_le.2 hn]
  cases hw : m.withTexCoords with
  | false =>
    have e2 : Mesh.vertexIdx v.1 { m with currentNormal := some v.2.1 } =
        (.ok (), m.putVertex v) := by
      rw [vertexIdx_ok (n := v.2.1) (t := v.2.2) (by exact hm) (by exact hp) rfl (by simp [hw])]
      simp [Mesh.putVertex, Mesh.setCurrent, hw]
    simp only [cs, hw]
    refine ⟨⟨⟨_, by rw [e1]⟩, ⟨none, ?_⟩, trivial⟩, ?_⟩
    · rw [e1]; simp [meshCall, e2]
    · simp only [Bool.false_eq_true, if_false, List.append_nil, List.cons_append,
        List.nil_append, List.foldl_cons, List.foldl_nil]
      rw [e1]; simp [meshCall, e2]
  | true =>
    have e2 : meshCall { m with currentNormal := some v.2.1 } (.texCoordIdx v.2.2) =
        (.ok none, { m with currentNormal := some v.2.1, currentTexCoord := some v.2.2 }) := by
      have : v.2.2 < Mesh.texCoordsNb { m with currentNormal := some v.2.1 } := ht hw
      simp [meshCall, Mesh.texCoordIdx, not_le.2 this]
    have e3 : Mesh.vertexIdx v.1
        { m with currentNormal := some v.2.1, currentTexCoord := some v.2.2 } =
        (.ok (), m.putVertex v) := by
      rw [vertexIdx_ok (n := v.2.1) (t := v.2.2) (by exact hm) (by exact hp) rfl (by simp)]
      simp [Mesh.putVertex, Mesh.setCurrent, hw]
    simp only [cs, hw]
    refine ⟨⟨⟨_, by rw [e1]⟩, ⟨_, by rw [e1, e2]⟩, ⟨none, ?_⟩, trivial⟩, ?_⟩
    · rw [e1, e2]; simp [meshCall, e3]
    · simp only [if_true, List.cons_append,
        List.nil_append, List.foldl_cons, List.foldl_nil]
      rw [e1, e2]; simp [meshCall, e3]

theorem putVertices (vs : List (ℕ × ℕ × ℕ)) (m : Mesh) (hm : m.currentMode ≠ none)
    (hv : ∀ v ∈ vs, v.1 < m.positionsNb ∧ v.2.1 < m.normalsNb ∧
      (m.withTexCoords = true → v.2.2 < m.texCoordsNb)) {recs : List Vtx} (hr : MeshInv m recs) :
    let cs : List MeshCall := vs.flatMap (fun v => [.normalIdx v.2.1] ++
      (if m.withTexCoords then [.texCoordIdx v.2.2] else []) ++ [.vertexIdx v.1])
    let m' := cs.foldl (fun m c => (meshCall m c).2) m
    allAccepted m cs ∧ MeshInv m' (recs ++ vs.map fun v => ⟨v.1, v.2.1, v.2.2⟩) ∧
    m'.currentMode = m.currentMode ∧ m'.vcounts = m.vcounts ∧ m'.positions = m.positions ∧
    m'.normals = m.normals ∧ m'.texCoords = m.texCoords ∧
    m'.withTexCoords = m.withTexCoords ∧ m'.currentVcount = m.currentVcount + vs.length := by
  induction vs generalizing m recs with
  | nil => exact ⟨trivial, by simpa using hr, rfl, rfl, rfl, rfl, rfl, rfl, rfl⟩
  | cons v vs ih =>
    intro cs m'
    obtain ⟨hp, hn, ht⟩ := hv v (by simp)
    obtain ⟨ha, he⟩ := putVertex_calls m v hm hp hn ht
    have hi : MeshInv (m.putVertex v) (recs ++ [⟨v.1, v.2.1, v.2.2⟩]) := by
      refine MeshInv.withVertex (m := m.setCurrent v) ?_ hm hp hn ht
      refine ⟨hr.positions, hr.normals, hr.texCoords, hr.vertices, hr.p_lt, hr.n_lt, hr.t_lt,
        hr.count, hr.closed, ?_, ?_, hr.counts_pos⟩
      · intro n h; cases h; exact hn
      · intro n h
        simp only [Mesh.setCurrent] at h
        split_ifs at h with hw
        · cases h; exact ht hw
        · exact hr.texCoord_lt n h
    have ih' := ih (m.putVertex v) hm (fun w hw => hv w (by simp [hw])) hi
    obtain ⟨h1, h2, h3, h4, h5, h6, h7, h8, h9⟩ := ih'
    have ecs : cs = ([.normalIdx v.2.1] ++
        (if m.withTexCoords then [.texCoordIdx v.2.2] else []) ++ [.vertexIdx v.1]) ++
        vs.flatMap (fun v => [.normalIdx v.2.1] ++
          (if m.withTexCoords then [.texCoordIdx v.2.2] else []) ++ [.vertexIdx v.1]) := by
      simp only [cs, List.flatMap_cons]
    have em : m' = (vs.flatMap (fun v => ([.normalIdx v.2.1] ++
          (if m.withTexCoords then [.texCoordIdx v.2.2] else []) ++ [.vertexIdx v.1] :
            List MeshCall))).foldl (fun m c => (meshCall m c).2) (m.putVertex v) := by
      simp only [m', ecs]
      rw [List.foldl_append, he]
    rw [em, ecs]
    refine ⟨?_, ?_, h3, h4, h5, h6, h7, h8, ?_⟩
    · rw [allAccepted_append, he]; exact ⟨ha, h1⟩
    · rw [List.append_assoc] at h2; exact h2
    · refine h9.trans ?_
      simp [Mesh.putVertex, Mesh.setCurrent, Mesh.withVertex]; ring

theorem putVertices' (tex : Bool) (vs : List (ℕ × ℕ × ℕ)) (m : Mesh) (htex : m.withTexCoords = tex)
    (hm : m.currentMode ≠ none)
    (hv : ∀ v ∈ vs, v.1 < m.positionsNb ∧ v.2.1 < m.normalsNb ∧
      (tex = true → v.2.2 < m.texCoordsNb)) {recs : List Vtx} (hr : MeshInv m recs) :
    let cs : List MeshCall := vs.flatMap (fun v => [.normalIdx v.2.1] ++
      (if tex then [.texCoordIdx v.2.2] else []) ++ [.vertexIdx v.1])
    let m' := cs.foldl (fun m c => (meshCall m c).2) m
    allAccepted m cs ∧ MeshInv m' (recs ++ vs.map fun v => ⟨v.1, v.2.1, v.2.2⟩) ∧
    m'.currentMode = m.currentMode ∧ m'.vcounts = m.vcounts ∧ m'.positions = m.positions ∧
    m'.normals = m.normals ∧ m'.texCoords = m.texCoords ∧
    m'.withTexCoords = tex ∧ m'.currentVcount = m.currentVcount + vs.length := by
  subst htex
  exact putVertices vs m hm hv hr

/-- Describing a primitive with existing positions, normals and texture coordinates, in whole
triangles or quads, is accepted, adds exactly these polygons after those already described, and
leaves the mesh closed with the same coordinates. -/
theorem C41_primitive (tex : Bool) (h : List MeshCall) (hu : ∀ c ∈ h, UnitNormal c)
    (hm : (meshAfter tex h).currentMode = none) (mode : MeshMode) (vs : List (ℕ × ℕ × ℕ))
    (hv : ∀ v ∈ vs, v.1 < (meshAfter tex h).positionsNb ∧ v.2.1 < (meshAfter tex h).normalsNb ∧
      (tex = true → v.2.2 < (meshAfter tex h).texCoordsNb))
    (h3 : mode = .triangles → vs.length % 3 = 0) (h4 : mode = .quads → vs.length % 4 = 0) :
    let m := meshAfter tex h
    let m' := meshAfter tex (h ++ primitive tex mode vs)
    allAccepted m (primitive tex mode vs) ∧
    faces m' = faces m ++ group mode (vs.map (record tex)) ∧
    m'.positions = m.positions ∧ m'.normals = m.normals ∧ m'.texCoords = m.texCoords ∧
    m'.currentMode = none := by
  intro m m'
  obtain ⟨recs, hr⟩ := meshInv_after tex h hu
  have htex : m.withTexCoords = tex := by
    have : ∀ h : List MeshCall, (∀ c ∈ h, UnitNormal c) →
        (meshAfter tex h).withTexCoords = tex := by
      intro h
      induction h using List.reverseRecOn with
      | nil => intro _; rfl
      | append_singleton h c ih =>
        intro hu
        obtain ⟨recs, hr⟩ := meshInv_after tex h fun c hc => hu c (by simp [hc])
        have := (grows_call hr c).tex
        unfold meshAfter at this ih ⊢
        rw [List.foldl_append]
        exact this.trans (ih fun c hc => hu c (by simp [hc]))
    exact this h hu
  have hz : m.currentVcount = 0 := hr.closed hm
  have e0 : meshCall m (.begin mode) = (.ok none, { m with currentMode := some mode }) := by
    have hm' : m.currentMode = none := hm
    simp [meshCall, Mesh.begin, hm', hz]
  have hr0 : MeshInv { m with currentMode := some mode } recs :=
    ⟨hr.positions, hr.normals, hr.texCoords, hr.vertices, hr.p_lt, hr.n_lt, hr.t_lt,
        hr.count, fun h => by simp at h, hr.normal_lt, hr.texCoord_lt, hr.counts_pos⟩
  obtain ⟨k1, k2, k3, k4, k5, k6, k7, k8, k9⟩ :=
    putVertices' tex vs { m with currentMode := some mode } htex (by simp) hv hr0
  set m1 := List.foldl (fun m c => (meshCall m c).2) { m with currentMode := some mode }
    (vs.flatMap (fun v => ([.normalIdx v.2.1] ++
          (if tex then [.texCoordIdx v.2.2] else []) ++ [.vertexIdx v.1] :
            List MeshCall))) with hm1
  have hv1 : m1.currentVcount = vs.length := by rw [k9]; simp [hz]
  have e1 := end_ok k2 k3 (by rw [hv1]; exact h3) (by rw [hv1]; exact h4)
  rw [hv1] at e1
  have em : m' = m1.closeWith (newCounts mode vs.length) := by
    have : m' = (meshCall m1 .endCall).2 := by
      simp only [m', primitive, meshAfter, List.foldl_append, List.foldl_cons, List.foldl_nil]
      rw [show List.foldl (fun m c => (meshCall m c).2) (Mesh.new tex) h = m from rfl, e0]
    rw [this]; simp [meshCall, e1]
  refine ⟨?_, ?_, ?_, ?_, ?_, ?_⟩
  · unfold primitive
    rw [allAccepted_append, allAccepted_append]
    refine ⟨⟨⟨⟨_, by rw [e0]⟩, trivial⟩, ?_⟩, ⟨none, ?_⟩, trivial⟩
    · simp only [List.foldl_cons, List.foldl_nil]; rw [e0]; exact k1
    · simp only [List.foldl_append, List.foldl_cons, List.foldl_nil]
      rw [e0, ← hm1]; simp [meshCall, e1]
  · have hk : MeshInv m' (recs ++ vs.map fun v => ⟨v.1, v.2.1, v.2.2⟩) := by
      have := k2.end.1; rw [e1] at this; rw [em]; exact this
    have hw : m'.withTexCoords = tex := by rw [em]; exact k8
    have hvc : m'.vcounts = m.vcounts ++ newCounts mode vs.length := by
      rw [em]; simp only [Mesh.closeWith, k4]
    rw [hk.faces, hr.faces, hvc, hw, List.map_append, List.map_map]
    rw [show (meshAfter tex h).withTexCoords = tex from htex]
    rw [splits_append _ _ _ _ (by rw [List.length_map, hr.count]; exact hz ▸ rfl)]
    congr 1
    have := splits_newCounts mode (vs.map (record tex))
    rw [List.length_map] at this
    rw [← this]
    rfl
  · rw [em]; exact k5
  · rw [em]; exact k6
  · rw [em]; exact k7
  · rw [em]; rfl

/-- A concrete instance: a square described with two triangles. -/
example : ∃ h : List MeshCall, (∀ c ∈ h, UnitNormal c) ∧ (meshAfter false h).positionsNb = 4 ∧
    (meshAfter false h).normalsNb = 1 ∧ (meshAfter false h).currentMode = none := by
  refine ⟨[.position 0 0 0, .position 1 0 0, .position 1 1 0, .position 0 1 0, .normal 0 0 1],
    ?_, ?_, ?_, ?_⟩
  · intro c hc
    simp at hc
    rcases hc with rfl | rfl | rfl | rfl | rfl <;> simp [UnitNormal]
    norm_num
  all_goals
    simp [meshAfter, meshCall, Mesh.position, Mesh.normal, Mesh.new, Mesh.positionsNb,
      Mesh.normalsNb]
  all_goals split_ifs with h <;> first | rfl | (exfalso; norm_num at h)

/-! ### C42 -/

/-- A rejected call other than `vertex(x, y, z)` leaves the mesh exactly as it was. Full claim:
every rejected call does; `vertex(x, y, z)` may have added a position (see
`C42_vertex_rejected_keeps_position`). -/
theorem C42_rejected_partial (m : Mesh) (c : MeshCall)
    (hc : (meshCall m c).1 = .throws) (hv : ∀ x y z, c ≠ .vertex x y z) :
    (meshCall m c).2 = m := by
  cases c with
  | position x y z => simp [meshCall, Mesh.position] at hc
  | normal x y z =>
    simp only [meshCall, Mesh.normal] at hc ⊢
    split_ifs at hc ⊢ with h
    · simp at hc
    · rfl
  | normalIdx i =>
    simp only [meshCall, Mesh.normalIdx] at hc ⊢
    split_ifs at hc ⊢ with h
    · rfl
    · simp at hc
  | texCoord x y => simp [meshCall, Mesh.texCoord] at hc
  | texCoordIdx i =>
    simp only [meshCall, Mesh.texCoordIdx] at hc ⊢
    split_ifs at hc ⊢ with h
    · rfl
    · simp at hc
  | begin mode =>
    simp only [meshCall, Mesh.begin] at hc ⊢
    split_ifs at hc ⊢ with h
    · rfl
    · rfl
    · simp at hc
  | vertexIdx i =>
    simp only [meshCall] at hc ⊢
    rcases vertexIdx_cases m i with e | ⟨n, t, _, _, _, _, e⟩
    · rw [e]
    · rw [e] at hc; simp at hc
  | vertex x y z => exact absurd rfl (hv x y z)
  | endCall =>
    simp only [meshCall, Mesh.end] at hc ⊢
    split at hc
    · rfl
    · split_ifs at hc ⊢ <;> first | rfl | (simp at hc)

/-- When `vertex(x, y, z)` is rejected, either the mesh is as it was (no open primitive), or
exactly the position was added. -/
theorem C42_vertex_rejected (m : Mesh) (x y z : ℝ)
    (hc : (meshCall m (.vertex x y z)).1 = .throws) :
    (m.currentMode = none ∧ (meshCall m (.vertex x y z)).2 = m) ∨
    (m.currentMode ≠ none ∧
      (m.currentNormal = none ∨ (m.withTexCoords = true ∧ m.currentTexCoord = none)) ∧
      (meshCall m (.vertex x y z)).2 = { m with positions := m.positions ++ [x, y, z] }) := by
  by_cases hm : m.currentMode = none
  · left; exact ⟨hm, by simp [meshCall, Mesh.vertex, hm]⟩
  · right
    refine ⟨hm, ?_⟩
    simp only [meshCall, Mesh.vertex, if_neg hm] at hc ⊢
    have e : MeshM.bind (Mesh.position x y z) Mesh.vertexIdx m =
        Mesh.vertexIdx (Mesh.positionsNb { m with positions := m.positions ++ [x, y, z] } - 1)
          { m with positions := m.positions ++ [x, y, z] } := rfl
    rw [e] at hc ⊢
    set p := Mesh.positionsNb { m with positions := m.positions ++ [x, y, z] } - 1 with hp
    have hlt : p < Mesh.positionsNb { m with positions := m.positions ++ [x, y, z] } := by
      rw [hp, positionsNb_append]; omega
    refine ⟨?_, ?_⟩
    · by_contra hcon
      push Not at hcon
      obtain ⟨n, hn⟩ := Option.ne_none_iff_exists'.1 hcon.1
      cases ht : m.currentTexCoord with
      | none =>
        have hw : ¬ m.withTexCoords = true := fun hw => hcon.2 hw ht
        have := vertexIdx_ok (m := { m with positions := m.positions ++ [x, y, z] }) (n := n)
          (t := 0) hm hlt hn (fun h => absurd h hw)
        rw [this] at hc; simp at hc
      | some t =>
        have := vertexIdx_ok (m := { m with positions := m.positions ++ [x, y, z] }) (n := n)
          (t := t) hm hlt hn (fun _ => ht)
        rw [this] at hc; simp at hc
    · rcases vertexIdx_cases { m with positions := m.positions ++ [x, y, z] } p with
        e | ⟨n, t, _, _, _, _, e⟩
      · rw [e]
      · rw [e] at hc; simp at hc

/-- The claim fails: on a new mesh, `begin` then `vertex(x, y, z)` without a normal throws and
still leaves a position in the mesh. -/
theorem C42_vertex_rejected_keeps_position :
    ∃ h : List MeshCall, (∀ c ∈ h, UnitNormal c) ∧
      (meshCall (meshAfter false h) (.vertex 1 2 3)).1 = .throws ∧
      (meshCall (meshAfter false h) (.vertex 1 2 3)).2 ≠ meshAfter false h := by
  refine ⟨[.begin .triangles], by simp [UnitNormal], ?_, ?_⟩
  · simp [meshAfter, meshCall, Mesh.begin, Mesh.new, Mesh.vertex, MeshM.bind, Mesh.position,
      Mesh.vertexIdx, Mesh.positionsNb]
  · simp [meshAfter, meshCall, Mesh.begin, Mesh.new, Mesh.vertex, MeshM.bind, Mesh.position,
      Mesh.vertexIdx, Mesh.positionsNb]

/-- `end` rejected for an incomplete triangle keeps the primitive open, so it can be completed
(an instance of `C42_rejected_partial`). -/
example : (meshCall (meshAfter false [.normal 0 0 1, .begin .triangles, .vertex 0 0 0])
    .endCall).1 = .throws := by
  have e : Mesh.normal 0 0 1 ⟨false, [], [], [], [], [], none, 0, none, none⟩ =
      (.ok 0, ⟨false, [], [0, 0, 1], [], [], [], none, 0, some 0, none⟩) := by
    unfold Mesh.normal
    rw [if_neg (not_not.2 (by norm_num))]
    simp [Mesh.normalsNb]
  simp [meshAfter, meshCall, e, Mesh.begin, Mesh.vertex, MeshM.bind, Mesh.position, Mesh.new,
    Mesh.vertexIdx, Mesh.positionsNb, Mesh.end]

end AlMath
