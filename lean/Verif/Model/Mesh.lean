import Verif.Model.Helpers

/-!
Model of `src/scenegraph/mesh.cpp` and `src/scenegraph/meshfactory.cpp`.

A method of `Mesh` is a function from the mesh to an outcome and the new mesh, also when it
throws. Sizes and indices (`size_t`) are natural numbers without bound; `NO_INDEX` is `none`.
A violated `assert` is undefined behaviour.
-/

namespace AlMath

/-- almath/scenegraph/mesh.h:127 (`Mesh::Mode`). -/
inductive MeshMode where
  | polygon
  | triangles
  | quads
  deriving DecidableEq, Repr

/-- almath/scenegraph/mesh.h:172-187 (members of `Mesh`). -/
@[ext] structure Mesh where
  withTexCoords : Bool
  positions : List ℝ
  normals : List ℝ
  texCoords : List ℝ
  vertices : List ℕ
  vcounts : List ℕ
  currentMode : Option MeshMode
  currentVcount : ℕ
  currentNormal : Option ℕ
  currentTexCoord : Option ℕ

/-- src/scenegraph/mesh.cpp:16-20 (constructor). -/
def Mesh.new (withTexCoords : Bool) : Mesh :=
  ⟨withTexCoords, [], [], [], [], [], none, 0, none, none⟩

/-- src/scenegraph/mesh.cpp:24 (`verticesStride`). -/
def Mesh.verticesStride (m : Mesh) : ℕ := if m.withTexCoords then 3 else 2

/-- src/scenegraph/mesh.cpp:28 (`positionsNb`). -/
def Mesh.positionsNb (m : Mesh) : ℕ := m.positions.length / 3

/-- src/scenegraph/mesh.cpp:36 (`normalsNb`). -/
def Mesh.normalsNb (m : Mesh) : ℕ := m.normals.length / 3

/-- src/scenegraph/mesh.cpp:44 (`texCoordsNb`). -/
def Mesh.texCoordsNb (m : Mesh) : ℕ := m.texCoords.length / 2

/-- src/scenegraph/mesh.cpp:52 (`verticesNb`). -/
def Mesh.verticesNb (m : Mesh) : ℕ := m.vertices.length / m.verticesStride

/-- src/scenegraph/mesh.cpp:62 (`polygonsNb`). -/
def Mesh.polygonsNb (m : Mesh) : ℕ := m.vcounts.length

/-- `&v.at(i)` for a `std::vector` (src/scenegraph/mesh.cpp:31, 39, 47, 55): the offset of the
pointer in the buffer; throws past the end. -/
def Mesh.ptrAt {α : Type} (l : List α) (i : ℕ) : Res ℕ := if i < l.length then .ok i else .throws

/-- src/scenegraph/mesh.cpp:30-32 (`positionPtrAt`), as an offset in `positions()`. -/
def Mesh.positionPtrAt (m : Mesh) (index : ℕ) : Res ℕ := Mesh.ptrAt m.positions (index * 3)

/-- src/scenegraph/mesh.cpp:38-40 (`normalPtrAt`), as an offset in `normals()`. -/
def Mesh.normalPtrAt (m : Mesh) (index : ℕ) : Res ℕ := Mesh.ptrAt m.normals (index * 3)

/-- src/scenegraph/mesh.cpp:46-48 (`texCoordPtrAt`), as an offset in `texCoords()`. -/
def Mesh.texCoordPtrAt (m : Mesh) (index : ℕ) : Res ℕ := Mesh.ptrAt m.texCoords (index * 2)

/-- src/scenegraph/mesh.cpp:54-56 (`vertexPtrAt`), as an offset in `vertices()`. -/
def Mesh.vertexPtrAt (m : Mesh) (index : ℕ) : Res ℕ :=
  Mesh.ptrAt m.vertices (index * m.verticesStride)

/-- src/scenegraph/mesh.cpp:64-67 (`polygonVerticesCountAt`). -/
def Mesh.polygonVerticesCountAt (m : Mesh) (index : ℕ) : Res ℕ := Res.read m.vcounts index

/-- A computation on a mesh, which may throw after having modified it. Not in /repo: modelling
vocabulary. -/
def MeshM (α : Type) : Type := Mesh → Res α × Mesh

namespace MeshM

/-- Sequencing: an exception ends the sequence, the mesh stays as the failing call left it. Not
in /repo: modelling vocabulary. -/
def bind {α β : Type} (x : MeshM α) (f : α → MeshM β) : MeshM β := fun m =>
  match x m with
  | (.ok a, m) => f a m
  | (.throws, m) => (.throws, m)
  | (.ub, m) => (.ub, m)

instance : Monad MeshM where
  pure a := fun m => (.ok a, m)
  bind := bind

/-- Reading the mesh. Not in /repo: modelling vocabulary. -/
def get {α : Type} (f : Mesh → α) : MeshM α := fun m => (.ok (f m), m)

/-- A pure step with an outcome. Not in /repo: modelling vocabulary. -/
def lift {α : Type} (r : Res α) : MeshM α := fun m => (r, m)

/-- `assert(p)`. Not in /repo: modelling vocabulary. -/
noncomputable def assert (p : Prop) : MeshM Unit :=
  open Classical in lift (if p then .ok () else .ub)

end MeshM

/-- src/scenegraph/mesh.cpp:69-74 (`position`). -/
def Mesh.position (x y z : ℝ) : MeshM ℕ := fun m =>
  let m := { m with positions := m.positions ++ [x, y, z] }
  (.ok (m.positionsNb - 1), m)

open Classical in
/-- src/scenegraph/mesh.cpp:76-83 (`normal` from coordinates). -/
noncomputable def Mesh.normal (x y z : ℝ) : MeshM ℕ := fun m =>
  if ¬ |x * x + y * y + z * z - 1| ≤ 1e-5 then (.ub, m)
  else
    let m := { m with normals := m.normals ++ [x, y, z] }
    let m := { m with currentNormal := some (m.normalsNb - 1) }
    (.ok (m.normalsNb - 1), m)

/-- src/scenegraph/mesh.cpp:76-83 (`normal` from coordinates) compiled with `NDEBUG`: line 77
does nothing. -/
def Mesh.normalRelease (x y z : ℝ) : MeshM ℕ := fun m =>
  let m := { m with normals := m.normals ++ [x, y, z] }
  let m := { m with currentNormal := some (m.normalsNb - 1) }
  (.ok (m.normalsNb - 1), m)

/-- src/scenegraph/mesh.cpp:85-89 (`normal` from an index). -/
def Mesh.normalIdx (index : ℕ) : MeshM Unit := fun m =>
  if index ≥ m.normalsNb then (.throws, m)
  else (.ok (), { m with currentNormal := some index })

/-- src/scenegraph/mesh.cpp:91-96 (`texCoord` from coordinates). -/
def Mesh.texCoord (x y : ℝ) : MeshM ℕ := fun m =>
  let m := { m with texCoords := m.texCoords ++ [x, y] }
  let m := { m with currentTexCoord := some (m.texCoordsNb - 1) }
  (.ok (m.texCoordsNb - 1), m)

/-- src/scenegraph/mesh.cpp:98-102 (`texCoord` from an index). -/
def Mesh.texCoordIdx (index : ℕ) : MeshM Unit := fun m =>
  if index ≥ m.texCoordsNb then (.throws, m)
  else (.ok (), { m with currentTexCoord := some index })

/-- src/scenegraph/mesh.cpp:104-111 (`begin`). -/
def Mesh.begin (mode : MeshMode) : MeshM Unit := fun m =>
  if m.currentMode ≠ none then (.throws, m)
  else if m.currentVcount ≠ 0 then (.ub, m)
  else (.ok (), { m with currentMode := some mode })

/-- src/scenegraph/mesh.cpp:113-137 (`vertex` from a position index). -/
def Mesh.vertexIdx (positionIndex : ℕ) : MeshM Unit := fun m =>
  if m.currentMode = none then (.throws, m)
  else if positionIndex ≥ m.positionsNb then (.throws, m)
  else
    match m.currentNormal with
    | none => (.throws, m)
    | some n =>
      match m.withTexCoords, m.currentTexCoord with
      | true, none => (.throws, m)
      | true, some t =>
        (.ok (), { m with vertices := m.vertices ++ [positionIndex, n, t],
                          currentVcount := m.currentVcount + 1 })
      | false, _ =>
        (.ok (), { m with vertices := m.vertices ++ [positionIndex, n],
                          currentVcount := m.currentVcount + 1 })

/-- src/scenegraph/mesh.cpp:139-145 (`vertex` from coordinates). -/
def Mesh.vertex (x y z : ℝ) : MeshM Unit := fun m =>
  if m.currentMode = none then (.throws, m)
  else MeshM.bind (Mesh.position x y z) Mesh.vertexIdx m

/-- src/scenegraph/mesh.cpp:147-171 (`end`). The loop pushing `n` (lines 160-162) is written
with `List.replicate`; the `int` counter is not bounded. -/
def Mesh.end : MeshM Unit := fun m =>
  let close (m : Mesh) : Res Unit × Mesh :=
    let m := { m with currentMode := none, currentVcount := 0 }
    if m.vcounts.sum * m.verticesStride = m.vertices.length then (.ok (), m) else (.ub, m)
  match m.currentMode with
  | none => (.throws, m)
  | some mode =>
    if m.currentVcount ≠ 0 then
      if mode = .polygon then close { m with vcounts := m.vcounts ++ [m.currentVcount] }
      else
        let n := if mode = .triangles then 3 else 4
        if m.currentVcount % n ≠ 0 then (.throws, m)
        else close { m with vcounts := m.vcounts ++ List.replicate (m.currentVcount / n) n }
    else close m

/-! ### `meshfactory.cpp` -/

/-- src/scenegraph/meshfactory.cpp:14-80 (`addBoxMesh`). -/
noncomputable def addBoxMesh (x y z : ℝ) : MeshM Unit := do
  let v0 ← Mesh.position x y z
  let _ ← Mesh.position x y (-z)
  let _ ← Mesh.position x (-y) (-z)
  let _ ← Mesh.position x (-y) z
  let _ ← Mesh.position (-x) (-y) z
  let _ ← Mesh.position (-x) y z
  let _ ← Mesh.position (-x) y (-z)
  let _ ← Mesh.position (-x) (-y) (-z)
  Mesh.begin .quads
  let _ ← Mesh.normal 1 0 0
  Mesh.vertexIdx v0
  Mesh.vertexIdx (v0 + 3)
  Mesh.vertexIdx (v0 + 2)
  Mesh.vertexIdx (v0 + 1)
  let _ ← Mesh.normal (-1) 0 0
  Mesh.vertexIdx (v0 + 4)
  Mesh.vertexIdx (v0 + 5)
  Mesh.vertexIdx (v0 + 6)
  Mesh.vertexIdx (v0 + 7)
  let _ ← Mesh.normal 0 0 1
  Mesh.vertexIdx (v0 + 5)
  Mesh.vertexIdx (v0 + 4)
  Mesh.vertexIdx (v0 + 3)
  Mesh.vertexIdx v0
  let _ ← Mesh.normal 0 0 (-1)
  Mesh.vertexIdx (v0 + 7)
  Mesh.vertexIdx (v0 + 6)
  Mesh.vertexIdx (v0 + 1)
  Mesh.vertexIdx (v0 + 2)
  let _ ← Mesh.normal 0 1 0
  Mesh.vertexIdx (v0 + 5)
  Mesh.vertexIdx v0
  Mesh.vertexIdx (v0 + 1)
  Mesh.vertexIdx (v0 + 6)
  let _ ← Mesh.normal 0 (-1) 0
  Mesh.vertexIdx (v0 + 3)
  Mesh.vertexIdx (v0 + 4)
  Mesh.vertexIdx (v0 + 7)
  Mesh.vertexIdx (v0 + 2)
  Mesh.end

/-- src/scenegraph/meshfactory.cpp:82-86 (`createBoxMesh`). -/
noncomputable def createBoxMesh (x y z : ℝ) : Res Mesh :=
  match addBoxMesh x y z (Mesh.new false) with
  | (.ok (), m) => .ok m
  | (.throws, _) => .throws
  | (.ub, _) => .ub

/-- src/scenegraph/meshfactory.cpp:89-97 (`Vert`). -/
structure Vert where
  p : ℕ
  n : ℕ

/-- src/scenegraph/meshfactory.cpp:96 (`Vert::operator+`), for a non-negative offset. -/
def Vert.add (v : Vert) (idx : ℕ) : Vert := ⟨v.p + idx, v.n + idx⟩

/-- src/scenegraph/meshfactory.cpp:99-102 (`xAddVert`). -/
def xAddVert (v : Vert) : MeshM Unit := do
  Mesh.normalIdx v.n
  Mesh.vertexIdx v.p

open Classical in
/-- src/scenegraph/meshfactory.cpp:113-126 (body of the loop of `xAddMeridian`); the loop carries
`z`. -/
noncomputable def xAddMeridianStep (halfExtentZ radius : ℝ) (nphi : ℤ) (x y lambda : ℝ) (z : ℝ)
    (iphi : ℤ) : MeshM ℝ := do
  let dphi : ℝ := 3.14 / nphi
  let phi := iphi * dphi
  let rxy := radius * Real.sin phi
  let _ ← Mesh.normal (Real.sin phi * Real.cos lambda) (Real.sin phi * Real.sin lambda)
    (Real.cos phi)
  let _ ← Mesh.position (x + rxy * Real.cos lambda) (y + rxy * Real.sin lambda)
    (z + radius * Real.cos phi)
  if iphi % (nphi / 2) = 0 ∧ halfExtentZ ≠ 0 then do
    let z := -halfExtentZ
    let _ ← Mesh.normal (Real.sin phi * Real.cos lambda) (Real.sin phi * Real.sin lambda)
      (Real.cos phi)
    let _ ← Mesh.position (x + rxy * Real.cos lambda) (y + rxy * Real.sin lambda)
      (z + radius * Real.cos phi)
    pure z
  else pure z

/-- src/scenegraph/meshfactory.cpp:104-128 (`xAddMeridian`). For `nphi = 0` the division by zero
is not used, the loop being empty. -/
noncomputable def xAddMeridian (halfExtentZ radius : ℝ) (nbVertices : ℤ) (x y lambda : ℝ) :
    MeshM Vert := do
  let vert ← MeshM.get fun m => (⟨m.positionsNb, m.normalsNb⟩ : Vert)
  let nphi := 2 * (nbVertices + 1)
  let _ ← (List.range (nphi - 1).toNat).foldlM
    (fun z (i : ℕ) => xAddMeridianStep halfExtentZ radius nphi x y lambda z (i + 1)) halfExtentZ
  pure vert

/-- src/scenegraph/meshfactory.cpp:130-137 (`Sector`; the members `x`, `y`, `ratio` are never
assigned nor read). -/
structure Sector where
  north : Vert
  south : Vert
  meridians : List Vert

open Classical in
/-- src/scenegraph/meshfactory.cpp:139-143 (`xSectorNbAdditionalVertices`, after its
assertion). -/
noncomputable def xSectorNbAdditionalVertices (halfExtentZ : ℝ) (nbArcVertices : ℤ) : ℤ :=
  2 * nbArcVertices + (if halfExtentZ = 0 then 1 else 2)

/-- src/scenegraph/meshfactory.cpp:163-180 (the polygons between two meridians). -/
def xAddStrip (north south ppos pos : Vert) (n : ℤ) : MeshM Unit := do
  Mesh.begin .triangles
  xAddVert north
  xAddVert ppos
  xAddVert pos
  Mesh.end
  Mesh.begin .quads
  (List.range (n - 1).toNat).forM fun i => do
    xAddVert (pos.add i)
    xAddVert (ppos.add i)
    xAddVert (ppos.add (1 + i))
    xAddVert (pos.add (1 + i))
  Mesh.end
  Mesh.begin .triangles
  xAddVert (pos.add (n - 1).toNat)
  xAddVert (ppos.add (n - 1).toNat)
  xAddVert south
  Mesh.end

/-- src/scenegraph/meshfactory.cpp:156-184 (body of the loop of `xAddSector`); the loop carries
the previous meridian and the list of meridians. -/
noncomputable def xAddSectorStep (halfExtentZ radius : ℝ) (nbArcVertices : ℤ)
    (x y azimuthStart azimuthStep : ℝ) (north south : Vert) (st : Option Vert × List Vert)
    (j : ℕ) : MeshM (Option Vert × List Vert) := do
  let n := xSectorNbAdditionalVertices halfExtentZ nbArcVertices
  let lambda := azimuthStart + j * azimuthStep
  let pos ← xAddMeridian halfExtentZ radius nbArcVertices x y lambda
  let np ← MeshM.get Mesh.positionsNb
  let nn ← MeshM.get Mesh.normalsNb
  MeshM.assert (n = ((np - pos.p : ℕ) : ℤ))
  MeshM.assert (n = ((nn - pos.n : ℕ) : ℤ))
  match st.1 with
  | none => pure ()
  | some ppos => xAddStrip north south ppos pos n
  pure (some pos, st.2 ++ [pos])

/-- src/scenegraph/meshfactory.cpp:145-186 (`xAddSector`). -/
noncomputable def xAddSector (halfExtentZ radius : ℝ) (nbArcVertices : ℤ)
    (x y azimuthStart azimuthStep : ℝ) (azimuthNbSteps : ℤ) (northNormal southNormal : ℕ) :
    MeshM Sector := do
  MeshM.assert (radius ≠ 0)
  let z := halfExtentZ + radius
  let np ← Mesh.position x y z
  let sp ← Mesh.position x y (-z)
  let north : Vert := ⟨np, northNormal⟩
  let south : Vert := ⟨sp, southNormal⟩
  let st ← (List.range azimuthNbSteps.toNat).foldlM
    (xAddSectorStep halfExtentZ radius nbArcVertices x y azimuthStart azimuthStep north south)
    (none, [])
  pure ⟨north, south, st.2⟩

/-- src/scenegraph/meshfactory.cpp:246-264 (the polygons joining two consecutive sectors). The
calls `back()` and `front()` on an empty vector are undefined. -/
def xJoinSectors (s t : Sector) (n : ℤ) : MeshM Unit := do
  let prev ← MeshM.lift (Res.read s.meridians.reverse 0)
  let next ← MeshM.lift (Res.read t.meridians 0)
  Mesh.begin .quads
  xAddVert t.north
  xAddVert s.north
  xAddVert prev
  xAddVert next
  (List.range (n - 1).toNat).forM fun j => do
    xAddVert (next.add j)
    xAddVert (prev.add j)
    xAddVert (prev.add (1 + j))
    xAddVert (next.add (1 + j))
  xAddVert (next.add (n - 1).toNat)
  xAddVert (prev.add (n - 1).toNat)
  xAddVert s.south
  xAddVert t.south
  Mesh.end

open Classical in
/-- src/scenegraph/meshfactory.cpp:207-242 (the sectors of `addRoundedBoxMesh`). The `int`
divisions of `nbSteps`, a multiple of 4, are exact. For `nbSteps = 0` the division by zero gives
a value that is not used. -/
noncomputable def xAddSectors (hx hy hz radius : ℝ) (nbArcVertices : ℤ)
    (northNormal southNormal : ℕ) : MeshM (List Sector) :=
  let nbSteps := 4 * (nbArcVertices + 1)
  let step : ℝ := 2 * piF / nbSteps
  let sector (x y start : ℝ) (steps : ℤ) : MeshM Sector :=
    xAddSector hz radius nbArcVertices x y start step steps northNormal southNormal
  if hx = 0 ∧ hy = 0 then do
    let s ← sector hx hy 0 nbSteps
    pure [s]
  else if hx = 0 then do
    let s ← sector hx hy 0 (nbSteps / 2 + 1)
    let t ← sector hx (-hy) piF (nbSteps / 2 + 1)
    pure [s, t]
  else if hy = 0 then do
    let s ← sector hx hy (-piF / 2) (nbSteps / 2 + 1)
    let t ← sector (-hx) hy (piF / 2) (nbSteps / 2 + 1)
    pure [s, t]
  else do
    let s ← sector hx hy 0 (nbSteps / 4 + 1)
    let t ← sector (-hx) hy (piF / 2) (nbSteps / 4 + 1)
    let u ← sector (-hx) (-hy) piF (nbSteps / 4 + 1)
    let v ← sector hx (-hy) (3 * piF / 2) (nbSteps / 4 + 1)
    pure [s, t, u, v]

/-- src/scenegraph/meshfactory.cpp:244-277 (joining the sectors of `addRoundedBoxMesh`). -/
def xJoinAll (sectors : List Sector) (n : ℤ) : MeshM Unit := do
  (List.range sectors.length).forM fun i => do
    let s ← MeshM.lift (Res.read sectors i)
    let t ← MeshM.lift (Res.read sectors ((i + 1) % sectors.length))
    xJoinSectors s t n
  if sectors.length ≥ 3 then do
    Mesh.begin .polygon
    sectors.forM fun s => xAddVert s.north
    Mesh.end
    Mesh.begin .polygon
    sectors.reverse.forM fun s => xAddVert s.south
    Mesh.end
  else pure ()

open Classical in
/-- src/scenegraph/meshfactory.cpp:190-278 (`addRoundedBoxMesh`). -/
noncomputable def addRoundedBoxMesh (hx hy hz radius : ℝ) (nbArcVertices : ℤ) : MeshM Unit := do
  MeshM.assert (hx ≥ 0)
  MeshM.assert (hy ≥ 0)
  MeshM.assert (hz ≥ 0)
  if radius = 0 then addBoxMesh hx hy hz
  else do
    MeshM.assert (radius > 0)
    let n := xSectorNbAdditionalVertices hz nbArcVertices
    let northNormal ← Mesh.normal 0 0 1
    let southNormal ← Mesh.normal 0 0 (-1)
    let sectors ← xAddSectors hx hy hz radius nbArcVertices northNormal southNormal
    xJoinAll sectors n

/-- src/scenegraph/meshfactory.cpp:280-286 (`createRoundedBoxMesh`). -/
noncomputable def createRoundedBoxMesh (hx hy hz radius : ℝ) (nbVertices : ℤ) : Res Mesh :=
  match addRoundedBoxMesh hx hy hz radius nbVertices (Mesh.new false) with
  | (.ok (), m) => .ok m
  | (.throws, _) => .throws
  | (.ub, _) => .ub

end AlMath
