import Verif.Props.C44

/-!
C106: the polygons of the rounded box mesh face outwards.
-/

namespace AlMath

open Spec

variable {m : Mesh} {recs : List Vtx}

theorem vertex_vpos (hb : Base m recs) {D : Delta} {v : Vert} {p n : ℝ × ℝ × ℝ}
    (h : VertexAt m D v p n) (cn : Option ℕ) :
    vpos (m.plus D cn) (m.vrec v) = p ∧ vnormal (m.plus D cn) (m.vrec v) = n := by
  obtain ⟨j, i, h1, h2, h3, h4⟩ := h
  obtain ⟨vp, vn⟩ := v
  simp only at h1 h2
  subst h1 h2
  exact ⟨vpos_plus hb D cn j _ p h3, vnormal_plus hb D cn i _ n h4⟩

theorem face_out (hb : Base m recs) {D : Delta} {f : List Vert} (h : OutwardFace m D f)
    (cn : Option ℕ) : FacesOut (m.plus D cn) (f.map m.vrec) := by
  obtain ⟨L, hL, hpos⟩ := h
  have e : (f.map m.vrec).map (vpos (m.plus D cn)) = L.map Prod.fst := by
    clear hpos
    induction hL with
    | nil => rfl
    | cons h _ ih => rw [List.map_cons, List.map_cons, List.map_cons, ih, (vertex_vpos hb h cn).1]
  intro v hv
  rw [e]
  obtain ⟨w, hw, rfl⟩ := List.mem_map.1 hv
  obtain ⟨k, hk, rfl⟩ := List.mem_iff_getElem.1 hw
  have hk' : k < L.length := hL.length_eq ▸ hk
  have := List.Forall₂.get hL hk hk'
  simp only [List.get_eq_getElem] at this
  rw [(vertex_vpos hb this cn).2]
  exact hpos _ (List.getElem_mem hk')

/-- On any reachable mesh outside `begin`/`end` (with a current texture coordinate if the mesh
uses them), every polygon that `addRoundedBoxMesh` adds is counter-clockwise seen from the side to
which the normal of each of its vertices points. The radius is positive, the half-extents along x
and y are zero or at least a millionth of the radius, and the arcs have at most a million
vertices: the azimuths of a full turn are multiples of the single-precision pi, so that the last
meridian is a little beyond the first one. -/
theorem C106_winding (tex : Bool) (h : List MeshCall) (hu : ∀ c ∈ h, UnitNormal c)
    (hm : (meshAfter tex h).currentMode = none)
    (ht : tex = true → (meshAfter tex h).currentTexCoord ≠ none)
    (hx hy hz r : ℝ) (h0z : 0 ≤ hz) (hr : 0 < r)
    (hX : hx = 0 ∨ 0.000001 * r ≤ hx) (hY : hy = 0 ∨ 0.000001 * r ≤ hy)
    (nb : ℕ) (hnb : nb ≤ 1000000) :
    ∃ m' fs, addRoundedBoxMesh hx hy hz r nb (meshAfter tex h) = (.ok (), m') ∧
      faces m' = faces (meshAfter tex h) ++ fs ∧ fs ≠ [] ∧ ∀ f ∈ fs, FacesOut m' f := by
  have h0x : 0 ≤ hx := by
    rcases hX with e | e
    · exact e.ge
    · exact le_trans (by positivity) e
  have h0y : 0 ≤ hy := by
    rcases hY with e | e
    · exact e.ge
    · exact le_trans (by positivity) e
  obtain ⟨recs, hb⟩ := base_after tex h hu hm ht
  set m := meshAfter tex h with hmdef
  clear_value m
  obtain ⟨D, hd, ⟨ho, hne, -⟩, hout⟩ := does_rounded hb ⟨h0x, h0y, h0z, hr⟩ nb
  obtain ⟨cn, e⟩ := hd m.currentNormal
  rw [← Mesh.plus_nil hb] at e
  refine ⟨m.plus D cn, D.F.map (List.map m.vrec), e, faces_plus hb D cn ho, by simpa using hne, ?_⟩
  intro f hf
  obtain ⟨g, hg, rfl⟩ := List.mem_map.1 hf
  exact face_out hb (hout ⟨hnb, hX, hY⟩ g hg) cn

/-- All polygons of the mesh returned by `createRoundedBoxMesh` face outwards. -/
theorem C106_create (hx hy hz r : ℝ) (h0z : 0 ≤ hz) (hr : 0 < r)
    (hX : hx = 0 ∨ 0.000001 * r ≤ hx) (hY : hy = 0 ∨ 0.000001 * r ≤ hy)
    (nb : ℕ) (hnb : nb ≤ 1000000) :
    ∃ m, createRoundedBoxMesh hx hy hz r nb = .ok m ∧ faces m ≠ [] ∧
      ∀ f ∈ faces m, FacesOut m f := by
  obtain ⟨m, fs, e, hf, h1, h2⟩ := C106_winding false [] (by simp) rfl (by simp) hx hy hz r h0z hr
    hX hY nb hnb
  have hf' : faces m = fs := by
    rw [hf]; simp [meshAfter, Spec.faces, Mesh.new, splits]
  have e' : addRoundedBoxMesh hx hy hz r nb (Mesh.new false) = (.ok (), m) := e
  exact ⟨m, by simp only [createRoundedBoxMesh, e'], by rwa [hf'], by rwa [hf']⟩

/-- The hypotheses hold for a rounded box, a pill and a sphere. -/
example : (∃ m, createRoundedBoxMesh 1 2 3 0.5 4 = .ok m ∧ faces m ≠ [] ∧ ∀ f ∈ faces m, FacesOut m f) ∧
    (∃ m, createRoundedBoxMesh 0 0 3 0.5 4 = .ok m ∧ faces m ≠ [] ∧ ∀ f ∈ faces m, FacesOut m f) ∧
    ∃ m, createRoundedBoxMesh 0 0 0 0.5 0 = .ok m ∧ faces m ≠ [] ∧ ∀ f ∈ faces m, FacesOut m f :=
  ⟨C106_create 1 2 3 0.5 (by norm_num) (by norm_num) (by norm_num) (by norm_num) 4 (by norm_num),
    C106_create 0 0 3 0.5 (by norm_num) (by norm_num) (by norm_num) (by norm_num) 4 (by norm_num),
    C106_create 0 0 0 0.5 (by norm_num) (by norm_num) (by norm_num) (by norm_num) 0 (by norm_num)⟩

/-- A square in the plane z = 0, counter-clockwise seen from above: the signed area is twice its
area. -/
example : signedArea [(0, 0, 0), (1, 0, 0), (1, 1, 0), (0, 1, 0)] (0, 0, 1) = 2 := by
  rw [signedArea_quad]; simp [dot3, cross3]; norm_num

end AlMath
