import Verif.Lemmas.MeshBuild
import Mathlib.Data.List.GetD

/-!
C43: the box mesh is a closed, outward-oriented surface.
-/

namespace AlMath

namespace Spec

/-- The `i`-th triple of a coordinate buffer. Not in /repo: specification. -/
def triple (l : List ℝ) (i : ℕ) : ℝ × ℝ × ℝ :=
  (l.getD (3 * i) 0, l.getD (3 * i + 1) 0, l.getD (3 * i + 2) 0)

/-- Position of a vertex record. Not in /repo: specification. -/
def vpos (m : Mesh) (r : List ℕ) : ℝ × ℝ × ℝ := triple m.positions (r.getD 0 0)

/-- Normal of a vertex record. Not in /repo: specification. -/
def vnormal (m : Mesh) (r : List ℕ) : ℝ × ℝ × ℝ := triple m.normals (r.getD 1 0)

/-- The consecutive pairs of a cyclic list. Not in /repo: specification. -/
def cyclicPairs {α : Type} (l : List α) : List (α × α) := l.zip (l.rotate 1)

/-- The directed edges of a list of polygons, as pairs of position indices. Not in /repo:
specification. -/
def edges (fs : List (List (List ℕ))) : List (ℕ × ℕ) :=
  fs.flatMap fun f => cyclicPairs (f.map fun r => r.getD 0 0)

/-- Difference of two points. Not in /repo: specification. -/
def sub3 (a b : ℝ × ℝ × ℝ) : ℝ × ℝ × ℝ := (a.1 - b.1, a.2.1 - b.2.1, a.2.2 - b.2.2)

/-- Cross product. Not in /repo: specification. -/
def cross3 (a b : ℝ × ℝ × ℝ) : ℝ × ℝ × ℝ :=
  (a.2.1 * b.2.2 - a.2.2 * b.2.1, a.2.2 * b.1 - a.1 * b.2.2, a.1 * b.2.1 - a.2.1 * b.1)

/-- Dot product. Not in /repo: specification. -/
def dot3 (a b : ℝ × ℝ × ℝ) : ℝ := a.1 * b.1 + a.2.1 * b.2.1 + a.2.2 * b.2.2

/-- Multiple of a vector. Not in /repo: specification. -/
def smul3 (s : ℝ) (a : ℝ × ℝ × ℝ) : ℝ × ℝ × ℝ := (s * a.1, s * a.2.1, s * a.2.2)

/-- The polygon has one normal `n`, its corners lie on the side of the plane through the origin
to which `n` points, and it turns counter-clockwise around `n` at every corner. Not in /repo:
specification. -/
def OutwardCCW (m : Mesh) (f : List (List ℕ)) : Prop :=
  ∃ n, dot3 n n = 1 ∧ (∀ r ∈ f, vnormal m r = n ∧ 0 < dot3 (vpos m r) n) ∧
    ∀ e ∈ cyclicPairs (cyclicPairs (f.map (vpos m))), ∃ s > 0,
      cross3 (sub3 e.1.2 e.1.1) (sub3 e.2.2 e.2.1) = smul3 s n

end Spec

open Spec

theorem bind_of_ok {α β : Type} {x : MeshM α} {f : α → MeshM β} {m m' : Mesh} {a : α}
    (h : x m = (.ok a, m')) : (x >>= f) m = f a m' := by
  show MeshM.bind x f m = _
  unfold MeshM.bind
  rw [h]

theorem triple_append (l : List ℝ) (P : List (ℝ × ℝ × ℝ)) (k j : ℕ) (hl : l.length = 3 * k)
    (p : ℝ × ℝ × ℝ) (hj : P[j]? = some p) : triple (l ++ P.flatMap xyz) (k + j) = p := by
  have key : ∀ i < 3, (l ++ P.flatMap xyz).getD (3 * (k + j) + i) 0 = (xyz p).getD i 0 := by
    intro i hi
    rw [List.getD_append_right _ _ _ _ (by rw [hl]; omega)]
    have e : 3 * (k + j) + i - l.length = 3 * j + i := by omega
    rw [e]
    clear e hl
    induction P generalizing j with
    | nil => simp at hj
    | cons q P ih =>
      rw [List.flatMap_cons]
      cases j with
      | zero =>
        simp at hj
        subst hj
        rw [List.getD_append _ _ _ _ (by simpa [xyz] using hi)]
        simp
      | succ j =>
        rw [List.getD_append_right _ _ _ _ (by simp [xyz]; omega)]
        have e : 3 * (j + 1) + i - (xyz q).length = 3 * j + i := by simp [xyz]; omega
        rw [e]
        exact ih j (by simpa using hj)
  unfold triple
  have h0 := key 0 (by norm_num)
  have h1 := key 1 (by norm_num)
  have h2 := key 2 (by norm_num)
  rw [Nat.add_zero] at h0
  rw [h0, h1, h2]
  rfl

/-- The additions of `addBoxMesh`: helper of the proofs. Not in /repo: specification. -/
def boxDelta (x y z : ℝ) (k l : ℕ) : Delta :=
  ⟨[(x, y, z), (x, y, -z), (x, -y, -z), (x, -y, z), (-x, -y, z), (-x, y, z), (-x, y, -z),
      (-x, -y, -z)],
   [(1, 0, 0), (-1, 0, 0), (0, 0, 1), (0, 0, -1), (0, 1, 0), (0, -1, 0)],
   [[⟨k, l⟩, ⟨k + 3, l⟩, ⟨k + 2, l⟩, ⟨k + 1, l⟩],
    [⟨k + 4, l + 1⟩, ⟨k + 5, l + 1⟩, ⟨k + 6, l + 1⟩, ⟨k + 7, l + 1⟩],
    [⟨k + 5, l + 2⟩, ⟨k + 4, l + 2⟩, ⟨k + 3, l + 2⟩, ⟨k, l + 2⟩],
    [⟨k + 7, l + 3⟩, ⟨k + 6, l + 3⟩, ⟨k + 1, l + 3⟩, ⟨k + 2, l + 3⟩],
    [⟨k + 5, l + 4⟩, ⟨k, l + 4⟩, ⟨k + 1, l + 4⟩, ⟨k + 6, l + 4⟩],
    [⟨k + 3, l + 5⟩, ⟨k + 4, l + 5⟩, ⟨k + 7, l + 5⟩, ⟨k + 2, l + 5⟩]],
   none⟩

theorem addBoxMesh_eq {m : Mesh} {recs : List Vtx} (h : Base m recs) (x y z : ℝ) :
    addBoxMesh x y z m =
      (.ok (), m.plus (boxDelta x y z m.positionsNb m.normalsNb) (some (m.normalsNb + 5))) := by
  conv_lhs => rw [Mesh.plus_nil h]
  unfold addBoxMesh
  iterate 8 rw [bind_of_ok (plus_position h _ _ _ _ _)]
  rw [bind_of_ok (plus_begin _ _ _ rfl)]
  iterate 6
    rw [bind_of_ok (plus_normal h _ _ _ _ _ (by norm_num))]
    iterate 4
      rw [bind_of_ok (plus_vertexIdx h _ _ _ _ _ rfl (by simp))]
  rw [plus_end h _ _ _ _ rfl (by simp [Whole])]
  simp [boxDelta, group, blocks]

theorem vrec_zero (m : Mesh) (v : Vert) : (m.vrec v).getD 0 0 = v.p := by
  unfold Mesh.vrec Vtx.flat; split_ifs <;> rfl

theorem vrec_one (m : Mesh) (v : Vert) : (m.vrec v).getD 1 0 = v.n := by
  unfold Mesh.vrec Vtx.flat; split_ifs <;> rfl

theorem vpos_plus {m : Mesh} {recs : List Vtx} (h : Base m recs) (D : Delta) (cn : Option ℕ)
    (j n : ℕ) (p : ℝ × ℝ × ℝ) (hj : D.P[j]? = some p) :
    vpos (m.plus D cn) (m.vrec ⟨m.positionsNb + j, n⟩) = p := by
  unfold vpos
  rw [vrec_zero]
  exact triple_append _ _ _ _ h.inv.consistent.positions p hj

theorem vnormal_plus {m : Mesh} {recs : List Vtx} (h : Base m recs) (D : Delta) (cn : Option ℕ)
    (j q : ℕ) (p : ℝ × ℝ × ℝ) (hj : D.N[j]? = some p) :
    vnormal (m.plus D cn) (m.vrec ⟨q, m.normalsNb + j⟩) = p := by
  unfold vnormal
  rw [vrec_one]
  exact triple_append _ _ _ _ h.inv.consistent.normals p hj

theorem base_after (tex : Bool) (h : List MeshCall) (hu : ∀ c ∈ h, UnitNormal c)
    (hm : (meshAfter tex h).currentMode = none)
    (ht : tex = true → (meshAfter tex h).currentTexCoord ≠ none) :
    ∃ recs, Base (meshAfter tex h) recs := by
  obtain ⟨recs, hr⟩ := meshInv_after tex h hu
  refine ⟨recs, hr, hm, fun hw => ht ?_⟩
  rw [← hw]
  clear hw ht hm hr recs
  induction h using List.reverseRecOn with
  | nil => rfl
  | append_singleton h c ih =>
    obtain ⟨recs, hr⟩ := meshInv_after tex h fun c hc => hu c (by simp [hc])
    have := (grows_call hr c).tex
    unfold meshAfter at this ih ⊢
    rw [List.foldl_append]
    exact (ih fun c hc => hu c (by simp [hc])).trans this.symm

/-- On any reachable mesh outside `begin`/`end` (with a current texture coordinate if the mesh
uses them), `addBoxMesh` succeeds, keeps the existing content, and adds six quads: their
corners are exactly the eight corners of the box; for positive half-extents each has one unit
normal pointing outwards and is counter-clockwise around it; and every directed edge occurs
once, together with the opposite edge. The mesh is left closed. Missing for the full claim: meshes
with texture coordinates none of which is current, where it throws (`C43_texture_throws`). -/
theorem C43_box_partial (tex : Bool) (h : List MeshCall) (hu : ∀ c ∈ h, UnitNormal c)
    (hm : (meshAfter tex h).currentMode = none)
    (ht : tex = true → (meshAfter tex h).currentTexCoord ≠ none) (x y z : ℝ) :
    ∃ m', addBoxMesh x y z (meshAfter tex h) = (.ok (), m') ∧ m'.currentMode = none ∧
      (meshAfter tex h).positions <+: m'.positions ∧ (meshAfter tex h).normals <+: m'.normals ∧
      m'.texCoords = (meshAfter tex h).texCoords ∧
      ∃ fs, faces m' = faces (meshAfter tex h) ++ fs ∧ fs.length = 6 ∧ (∀ f ∈ fs, f.length = 4) ∧
        (∀ c, c ∈ fs.flatten.map (vpos m') ↔
          (c.1 = x ∨ c.1 = -x) ∧ (c.2.1 = y ∨ c.2.1 = -y) ∧ (c.2.2 = z ∨ c.2.2 = -z)) ∧
        (0 < x → 0 < y → 0 < z → ∀ f ∈ fs, OutwardCCW m' f) ∧
        (edges fs).Nodup ∧ ∀ e ∈ edges fs, e.1 ≠ e.2 ∧ (e.2, e.1) ∈ edges fs := by
  obtain ⟨recs, hb⟩ := base_after tex h hu hm ht
  set m := meshAfter tex h with hmdef
  clear_value m
  set D := boxDelta x y z m.positionsNb m.normalsNb with hD
  set cn := some (m.normalsNb + 5) with hcn
  have hp : ∀ (j n : ℕ) (p : ℝ × ℝ × ℝ), D.P[j]? = some p →
      vpos (m.plus D cn) (m.vrec ⟨m.positionsNb + j, n⟩) = p := fun j n p hj => vpos_plus hb D cn j n p hj
  have hn : ∀ (j q : ℕ) (p : ℝ × ℝ × ℝ), D.N[j]? = some p →
      vnormal (m.plus D cn) (m.vrec ⟨q, m.normalsNb + j⟩) = p :=
    fun j n p hj => vnormal_plus hb D cn j n p hj
  have p0 := fun n => hp 0 n _ rfl
  have p1 := fun n => hp 1 n _ rfl
  have p2 := fun n => hp 2 n _ rfl
  have p3 := fun n => hp 3 n _ rfl
  have p4 := fun n => hp 4 n _ rfl
  have p5 := fun n => hp 5 n _ rfl
  have p6 := fun n => hp 6 n _ rfl
  have p7 := fun n => hp 7 n _ rfl
  have n0 := fun n => hn 0 n _ rfl
  have n1 := fun n => hn 1 n _ rfl
  have n2 := fun n => hn 2 n _ rfl
  have n3 := fun n => hn 3 n _ rfl
  have n4 := fun n => hn 4 n _ rfl
  have n5 := fun n => hn 5 n _ rfl
  simp only [Nat.add_zero] at p0 n0
  refine ⟨m.plus D cn, addBoxMesh_eq hb x y z, rfl, List.prefix_append _ _, List.prefix_append _ _,
    rfl, D.F.map (List.map m.vrec), faces_plus hb D cn rfl, ?_, ?_, ?_, ?_, ?_, ?_⟩
  · simp [hD, boxDelta]
  · simp [hD, boxDelta]
  · intro c
    have e : (D.F.map (List.map m.vrec)).flatten.map (vpos (m.plus D cn)) =
      [(x, y, z), (x, -y, z), (x, -y, -z), (x, y, -z),
       (-x, -y, z), (-x, y, z), (-x, y, -z), (-x, -y, -z),
       (-x, y, z), (-x, -y, z), (x, -y, z), (x, y, z),
       (-x, -y, -z), (-x, y, -z), (x, y, -z), (x, -y, -z),
       (-x, y, z), (x, y, z), (x, y, -z), (-x, y, -z),
       (x, -y, z), (-x, -y, z), (-x, -y, -z), (x, -y, -z)] := by
      have eF : D.F = (boxDelta x y z m.positionsNb m.normalsNb).F := rfl
      rw [eF]
      simp only [boxDelta, List.map_cons, List.map_nil, List.flatten_cons, List.flatten_nil,
        List.cons_append, List.nil_append, List.append_nil, p0, p1, p2, p3, p4, p5, p6, p7]
    rw [e]
    obtain ⟨c1, c2, c3⟩ := c
    simp only [List.mem_cons, Prod.mk.injEq, List.not_mem_nil, or_false]
    constructor
    · rintro (⟨rfl, rfl, rfl⟩ | ⟨rfl, rfl, rfl⟩ | ⟨rfl, rfl, rfl⟩ | ⟨rfl, rfl, rfl⟩ |
        ⟨rfl, rfl, rfl⟩ | ⟨rfl, rfl, rfl⟩ | ⟨rfl, rfl, rfl⟩ | ⟨rfl, rfl, rfl⟩ |
        ⟨rfl, rfl, rfl⟩ | ⟨rfl, rfl, rfl⟩ | ⟨rfl, rfl, rfl⟩ | ⟨rfl, rfl, rfl⟩ |
        ⟨rfl, rfl, rfl⟩ | ⟨rfl, rfl, rfl⟩ | ⟨rfl, rfl, rfl⟩ | ⟨rfl, rfl, rfl⟩ |
        ⟨rfl, rfl, rfl⟩ | ⟨rfl, rfl, rfl⟩ | ⟨rfl, rfl, rfl⟩ | ⟨rfl, rfl, rfl⟩ |
        ⟨rfl, rfl, rfl⟩ | ⟨rfl, rfl, rfl⟩ | ⟨rfl, rfl, rfl⟩ | ⟨rfl, rfl, rfl⟩) <;> simp
    · rintro ⟨rfl | rfl, rfl | rfl, rfl | rfl⟩ <;> simp
  · intro hx hy hz f hf
    have eF : D.F = (boxDelta x y z m.positionsNb m.normalsNb).F := rfl
    rw [eF] at hf
    simp only [boxDelta, List.map_cons, List.map_nil, List.mem_cons, List.not_mem_nil,
      or_false] at hf
    have hxy := mul_pos hx hy
    have hyz := mul_pos hy hz
    have hxz := mul_pos hx hz
    rcases hf with rfl | rfl | rfl | rfl | rfl | rfl
    · refine ⟨(1, 0, 0), by norm_num [dot3], ?_, ?_⟩
      · simp [n0, p0, p1, p2, p3, dot3, hx]
      · simp only [List.map_cons, List.map_nil, p0, p1, p2, p3]
        intro e he
        refine ⟨4 * (y * z), by positivity, ?_⟩
        simp [cyclicPairs, List.rotate] at he
        rcases he with rfl | rfl | rfl | rfl <;>
          simp [cross3, sub3, smul3] <;> ring
    · refine ⟨(-1, 0, 0), by norm_num [dot3], ?_, ?_⟩
      · simp [n1, p4, p5, p6, p7, dot3, hx]
      · simp only [List.map_cons, List.map_nil, p4, p5, p6, p7]
        intro e he
        refine ⟨4 * (y * z), by positivity, ?_⟩
        simp [cyclicPairs, List.rotate] at he
        rcases he with rfl | rfl | rfl | rfl <;>
          simp [cross3, sub3, smul3] <;> ring
    · refine ⟨(0, 0, 1), by norm_num [dot3], ?_, ?_⟩
      · simp [n2, p0, p3, p4, p5, dot3, hz]
      · simp only [List.map_cons, List.map_nil, p0, p3, p4, p5]
        intro e he
        refine ⟨4 * (x * y), by positivity, ?_⟩
        simp [cyclicPairs, List.rotate] at he
        rcases he with rfl | rfl | rfl | rfl <;>
          simp [cross3, sub3, smul3] <;> ring
    · refine ⟨(0, 0, -1), by norm_num [dot3], ?_, ?_⟩
      · simp [n3, p1, p2, p6, p7, dot3, hz]
      · simp only [List.map_cons, List.map_nil, p1, p2, p6, p7]
        intro e he
        refine ⟨4 * (x * y), by positivity, ?_⟩
        simp [cyclicPairs, List.rotate] at he
        rcases he with rfl | rfl | rfl | rfl <;>
          simp [cross3, sub3, smul3] <;> ring
    · refine ⟨(0, 1, 0), by norm_num [dot3], ?_, ?_⟩
      · simp [n4, p0, p1, p5, p6, dot3, hy]
      · simp only [List.map_cons, List.map_nil, p0, p1, p5, p6]
        intro e he
        refine ⟨4 * (x * z), by positivity, ?_⟩
        simp [cyclicPairs, List.rotate] at he
        rcases he with rfl | rfl | rfl | rfl <;>
          simp [cross3, sub3, smul3] <;> ring
    · refine ⟨(0, -1, 0), by norm_num [dot3], ?_, ?_⟩
      · simp [n5, p2, p3, p4, p7, dot3, hy]
      · simp only [List.map_cons, List.map_nil, p2, p3, p4, p7]
        intro e he
        refine ⟨4 * (x * z), by positivity, ?_⟩
        simp [cyclicPairs, List.rotate] at he
        rcases he with rfl | rfl | rfl | rfl <;>
          simp [cross3, sub3, smul3] <;> ring
  all_goals
    have e : edges (D.F.map (List.map m.vrec)) =
        [(0, 3), (3, 2), (2, 1), (1, 0), (4, 5), (5, 6), (6, 7), (7, 4),
         (5, 4), (4, 3), (3, 0), (0, 5), (7, 6), (6, 1), (1, 2), (2, 7),
         (5, 0), (0, 1), (1, 6), (6, 5), (3, 4), (4, 7), (7, 2), (2, 3)].map
          (fun e => (m.positionsNb + e.1, m.positionsNb + e.2)) := by
      have eF : D.F = (boxDelta x y z m.positionsNb m.normalsNb).F := rfl
      rw [eF]
      simp only [boxDelta, edges, List.map_cons, List.map_nil, List.flatMap_cons,
        List.flatMap_nil, vrec_zero]
      simp [cyclicPairs, List.rotate]
    rw [e]
  · refine List.Nodup.map ?_ (by decide)
    intro a b hab
    have h1 := (Prod.mk.injEq _ _ _ _).mp hab
    exact Prod.ext (by omega) (by omega)
  · intro e he
    obtain ⟨a, ha, rfl⟩ := List.mem_map.1 he
    have key : ∀ a ∈ ([(0, 3), (3, 2), (2, 1), (1, 0), (4, 5), (5, 6), (6, 7), (7, 4),
         (5, 4), (4, 3), (3, 0), (0, 5), (7, 6), (6, 1), (1, 2), (2, 7),
         (5, 0), (0, 1), (1, 6), (6, 5), (3, 4), (4, 7), (7, 2), (2, 3)] : List (ℕ × ℕ)),
        a.1 ≠ a.2 ∧ (a.2, a.1) ∈ ([(0, 3), (3, 2), (2, 1), (1, 0), (4, 5), (5, 6), (6, 7), (7, 4),
         (5, 4), (4, 3), (3, 0), (0, 5), (7, 6), (6, 1), (1, 2), (2, 7),
         (5, 0), (0, 1), (1, 6), (6, 5), (3, 4), (4, 7), (7, 2), (2, 3)] : List (ℕ × ℕ)) := by
      decide
    obtain ⟨h1, h2⟩ := key a ha
    exact ⟨fun hc => h1 (by simpa using hc), List.mem_map.2 ⟨(a.2, a.1), h2, rfl⟩⟩

/-- `createBoxMesh` returns such a mesh. -/
theorem C43_create (x y z : ℝ) :
    ∃ m, createBoxMesh x y z = .ok m ∧ (faces m).length = 6 ∧ m.positionsNb = 8 ∧
      m.normalsNb = 6 ∧ m.currentMode = none := by
  have hb : Base (Mesh.new false) [] := ⟨meshInv_new false, rfl, by simp [Mesh.new]⟩
  refine ⟨_, by simp only [createBoxMesh, addBoxMesh_eq hb]; rfl, ?_, ?_, ?_, rfl⟩
  · rw [faces_plus hb _ _ rfl]
    simp [boxDelta, Spec.faces, Mesh.new, splits]
  · rw [plus_positionsNb hb]; simp [boxDelta, Mesh.new, Mesh.positionsNb]
  · rw [plus_normalsNb hb]; simp [boxDelta, Mesh.new, Mesh.normalsNb]

/-- Inside `begin`/`end`, `addBoxMesh` throws; the eight positions stay in the mesh. -/
theorem C43_open_throws (m : Mesh) (hm : m.currentMode ≠ none) (x y z : ℝ) :
    (addBoxMesh x y z m).1 = .throws ∧
    (addBoxMesh x y z m).2.positions.length = m.positions.length + 24 := by
  simp [addBoxMesh, bind, MeshM.bind, Mesh.position, Mesh.begin, hm]

/-- On a new mesh with texture coordinates none of which is current, `addBoxMesh` throws and
leaves the mesh open. -/
theorem C43_texture_throws :
    (addBoxMesh 1 1 1 (Mesh.new true)).1 = .throws ∧
    (addBoxMesh 1 1 1 (Mesh.new true)).2.currentMode ≠ none := by
  have hn : ¬ ((1e-5 : ℝ) < 0) := by norm_num
  simp [addBoxMesh, bind, MeshM.bind, Mesh.position, Mesh.begin, Mesh.new, Mesh.normal, hn,
    Mesh.vertexIdx, Mesh.positionsNb, Mesh.normalsNb]

/-- The hypotheses of `C43_box_partial` hold for a new mesh, and for a mesh that has a box already. -/
example : (meshAfter false []).currentMode = none ∧
    (meshAfter true [.texCoord 0 0]).currentTexCoord ≠ none := by
  simp [meshAfter, Mesh.new, meshCall, Mesh.texCoord]

end AlMath
