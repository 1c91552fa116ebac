import Verif.Props.C44

/-!
Sizes of the meshes made by the factory: helper of the proofs of C67. Whatever the arguments, the
operations keep the mesh consistent and add a bounded number of elements.
-/

namespace AlMath

open Spec

/-- From a consistent mesh without texture coordinates, whatever the outcome, the operation gives such a
mesh with at most `p` more positions, `n` more normals and `v` more vertices; the value it returns
satisfies `Q`. Not in /repo: specification. -/
def Within {α : Type} (x : MeshM α) (p n v : ℕ) (Q : α → Prop) : Prop :=
  ∀ m recs, MeshInv m recs → m.withTexCoords = false →
    (∃ recs', MeshInv (x m).2 recs') ∧ (x m).2.withTexCoords = false ∧
    (x m).2.positions.length ≤ m.positions.length + 3 * p ∧
    (x m).2.normals.length ≤ m.normals.length + 3 * n ∧
    (x m).2.vertices.length ≤ m.vertices.length + 2 * v ∧
    ∀ a, (x m).1 = .ok a → Q a

namespace Within

variable {α β : Type} {p n v p' n' v' : ℕ} {Q : α → Prop}

theorem mono {x : MeshM α} {Q' : α → Prop} (h : Within x p n v Q) (hp : p ≤ p') (hn : n ≤ n')
    (hv : v ≤ v') (hQ : ∀ a, Q a → Q' a) : Within x p' n' v' Q' := by
  intro m recs hm ht
  obtain ⟨h1, h2, h3, h4, h5, h6⟩ := h m recs hm ht
  exact ⟨h1, h2, by omega, by omega, by omega, fun a ha => hQ a (h6 a ha)⟩

theorem bind {x : MeshM α} {f : α → MeshM β} {Q' : β → Prop} (hx : Within x p n v Q)
    (hf : ∀ a, Q a → Within (f a) p' n' v' Q') :
    Within (x >>= f) (p + p') (n + n') (v + v') Q' := by
  intro m recs hm ht
  obtain ⟨⟨r', h1⟩, h2, h3, h4, h5, h6⟩ := hx m recs hm ht
  change (∃ recs', MeshInv (MeshM.bind x f m).2 recs') ∧ (MeshM.bind x f m).2.withTexCoords = false ∧
    (MeshM.bind x f m).2.positions.length ≤ _ ∧ (MeshM.bind x f m).2.normals.length ≤ _ ∧
    (MeshM.bind x f m).2.vertices.length ≤ _ ∧ ∀ a, (MeshM.bind x f m).1 = .ok a → _
  unfold MeshM.bind
  rcases hxm : x m with ⟨r, m'⟩
  rw [hxm] at h1 h2 h3 h4 h5 h6
  cases r with
  | ok a =>
    obtain ⟨g1, g2, g3, g4, g5, g6⟩ := hf a (h6 a rfl) m' r' h1 h2
    dsimp only at *
    exact ⟨g1, g2, by omega, by omega, by omega, g6⟩
  | throws => exact ⟨⟨r', h1⟩, h2, by dsimp only at *; omega, by dsimp only at *; omega,
      by dsimp only at *; omega, by simp⟩
  | ub => exact ⟨⟨r', h1⟩, h2, by dsimp only at *; omega, by dsimp only at *; omega,
      by dsimp only at *; omega, by simp⟩

theorem pure (a : α) (hQ : Q a) : Within (Pure.pure a : MeshM α) 0 0 0 Q := by
  intro m recs hm ht
  refine ⟨⟨recs, hm⟩, ht, le_rfl, le_rfl, le_rfl, ?_⟩
  intro b hb
  have : a = b := by simpa [Pure.pure] using hb
  exact this ▸ hQ

/-- An operation that does not touch the mesh. -/
theorem same {x : MeshM α} (h : ∀ m, (x m).2 = m) : Within x 0 0 0 fun _ => True := by
  intro m recs hm ht
  rw [h m]
  exact ⟨⟨recs, hm⟩, ht, le_rfl, le_rfl, le_rfl, fun _ _ => trivial⟩

theorem get (f : Mesh → α) : Within (MeshM.get f) 0 0 0 fun _ => True := same fun _ => rfl

theorem lift (r : Res α) : Within (MeshM.lift r) 0 0 0 fun _ => True := same fun _ => rfl

theorem assert (P : Prop) : Within (MeshM.assert P) 0 0 0 fun _ => True := same fun _ => rfl

theorem position (x y z : ℝ) : Within (Mesh.position x y z) 1 0 0 fun _ => True := by
  intro m recs hm ht
  exact ⟨⟨recs, hm.position x y z⟩, ht, by simp [Mesh.position], le_rfl, le_rfl, fun _ _ => trivial⟩

theorem normal (x y z : ℝ) : Within (Mesh.normal x y z) 0 1 0 fun _ => True := by
  intro m recs hm ht
  by_cases hu : |x * x + y * y + z * z - 1| ≤ 1e-5
  · obtain ⟨new, h, -⟩ := hm.call (.normal x y z) (by
      have : x * x + y * y + z * z = x ^ 2 + y ^ 2 + z ^ 2 := by ring
      rw [this] at hu
      exact hu)
    refine ⟨⟨_, h⟩, ?_⟩
    simp only [Mesh.normal, not_true_eq_false, hu, if_false]
    exact ⟨ht, le_rfl, by simp, le_rfl, fun _ _ => trivial⟩
  · simp only [Mesh.normal, not_false_eq_true, hu, if_true]
    exact ⟨⟨recs, hm⟩, ht, le_rfl, by omega, le_rfl, fun _ _ => trivial⟩

theorem normalIdx (i : ℕ) : Within (Mesh.normalIdx i) 0 0 0 fun _ => True := by
  intro m recs hm ht
  obtain ⟨new, h, -⟩ := hm.call (.normalIdx i) trivial
  refine ⟨⟨_, h⟩, ?_⟩
  unfold Mesh.normalIdx
  split_ifs
  · exact ⟨ht, le_rfl, le_rfl, le_rfl, fun _ _ => trivial⟩
  · exact ⟨ht, le_rfl, le_rfl, le_rfl, fun _ _ => trivial⟩

theorem vertexIdx (i : ℕ) : Within (Mesh.vertexIdx i) 0 0 1 fun _ => True := by
  intro m recs hm ht
  obtain ⟨new, h, -⟩ := hm.call (.vertexIdx i) trivial
  refine ⟨⟨_, h⟩, ?_⟩
  rcases vertexIdx_cases m i with e | ⟨a, t, -, -, -, -, e⟩
  · rw [e]
    exact ⟨ht, le_rfl, le_rfl, by simp, fun _ _ => trivial⟩
  · rw [e]
    refine ⟨ht, le_rfl, le_rfl, ?_, fun _ _ => trivial⟩
    simp [Mesh.withVertex, Vtx.flat, ht]

theorem begin (mode : MeshMode) : Within (Mesh.begin mode) 0 0 0 fun _ => True := by
  intro m recs hm ht
  obtain ⟨new, h, -⟩ := hm.call (.begin mode) trivial
  refine ⟨⟨_, h⟩, ?_⟩
  unfold Mesh.begin
  split_ifs <;> exact ⟨ht, le_rfl, le_rfl, le_rfl, fun _ _ => trivial⟩

theorem «end» : Within Mesh.end 0 0 0 fun _ => True := by
  intro m recs hm ht
  refine ⟨⟨_, hm.end.1⟩, ?_⟩
  rcases end_cases hm with e | ⟨mode, -, -, -, e⟩
  · rw [e]
    exact ⟨ht, le_rfl, le_rfl, le_rfl, fun _ _ => trivial⟩
  · rw [e]
    exact ⟨ht, le_rfl, le_rfl, le_rfl, fun _ _ => trivial⟩

theorem foldlM {σ : Type} (f : σ → β → MeshM σ) (hf : ∀ s b, Within (f s b) p n v fun _ => True)
    (l : List β) (s : σ) :
    Within (l.foldlM f s) (l.length * p) (l.length * n) (l.length * v) fun _ => True := by
  induction l generalizing s with
  | nil => exact (pure s trivial).mono (by simp) (by simp) (by simp) fun _ h => h
  | cons b l ih =>
    rw [List.foldlM_cons]
    exact ((hf s b).bind fun a _ => ih a).mono (by rw [List.length_cons]; ring_nf; rfl)
      (by rw [List.length_cons]; ring_nf; rfl) (by rw [List.length_cons]; ring_nf; rfl) fun _ h => h

theorem forM (f : β → MeshM Unit) (hf : ∀ b, Within (f b) p n v fun _ => True) (l : List β) :
    Within (l.forM f) (l.length * p) (l.length * n) (l.length * v) fun _ => True := by
  induction l with
  | nil => exact (pure () trivial).mono (by simp) (by simp) (by simp) fun _ h => h
  | cons b l ih =>
    change Within (f b >>= fun _ => l.forM f) _ _ _ _
    exact ((hf b).bind fun a _ => ih).mono (by rw [List.length_cons]; ring_nf; rfl)
      (by rw [List.length_cons]; ring_nf; rfl) (by rw [List.length_cons]; ring_nf; rfl) fun _ h => h

end Within

/-! ### The factory -/

theorem within_vert (w : Vert) : Within (xAddVert w) 0 0 1 fun _ => True :=
  (Within.normalIdx _).bind fun _ _ => Within.vertexIdx _

theorem within_meridianStep (hz r : ℝ) (nphi : ℤ) (x y lam z : ℝ) (i : ℤ) :
    Within (xAddMeridianStep hz r nphi x y lam z i) 2 2 0 fun _ => True := by
  unfold xAddMeridianStep
  refine ((Within.normal _ _ _).bind fun _ _ => (Within.position _ _ _).bind fun _ _ =>
    (?_ : Within _ 1 1 0 fun _ => True)).mono le_rfl le_rfl le_rfl fun _ h => h
  split_ifs
  · exact (Within.normal _ _ _).bind fun _ _ => (Within.position _ _ _).bind fun _ _ =>
      Within.pure _ trivial
  · exact (Within.pure _ trivial).mono (by omega) (by omega) le_rfl fun _ h => h

theorem within_meridian (hz r : ℝ) (nb : ℕ) (hnb : nb ≤ 80) (x y lam : ℝ) :
    Within (xAddMeridian hz r nb x y lam) 322 322 0 fun _ => True := by
  unfold xAddMeridian
  refine ((Within.get _).bind fun _ _ => (Within.foldlM _ (fun z i => within_meridianStep _ _ _ _ _ _ z _)
    _ _).bind fun _ _ => Within.pure _ trivial).mono ?_ ?_ ?_ fun _ h => h
  all_goals
    rw [List.length_range]
    have : (2 * ((nb : ℤ) + 1) - 1).toNat ≤ 161 := by omega
    omega

theorem within_strip (a b c d : Vert) (n : ℤ) (hn : n ≤ 162) :
    Within (xAddStrip a b c d n) 0 0 650 fun _ => True := by
  unfold xAddStrip
  refine ((Within.begin _).bind fun _ _ => (within_vert _).bind fun _ _ => (within_vert _).bind fun _ _ =>
    (within_vert _).bind fun _ _ => Within.end.bind fun _ _ => (Within.begin _).bind fun _ _ =>
    (Within.forM _ (fun i => (within_vert _).bind fun _ _ => (within_vert _).bind fun _ _ =>
      (within_vert _).bind fun _ _ => (within_vert _)) _).bind fun _ _ => Within.end.bind fun _ _ =>
    (Within.begin _).bind fun _ _ => (within_vert _).bind fun _ _ => (within_vert _).bind fun _ _ =>
    (within_vert _).bind fun _ _ => Within.end).mono ?_ ?_ ?_ fun _ h => h
  all_goals
    rw [List.length_range]
    omega

theorem within_sectorStep (hz r : ℝ) (nb : ℕ) (hnb : nb ≤ 80) (x y a s : ℝ) (north south : Vert)
    (st : Option Vert × List Vert) (j : ℕ) :
    Within (xAddSectorStep hz r nb x y a s north south st j) 322 322 650 fun _ => True := by
  unfold xAddSectorStep
  refine ((within_meridian _ _ _ hnb _ _ _).bind fun _ _ => (Within.get _).bind fun _ _ =>
    (Within.get _).bind fun _ _ => (Within.assert _).bind fun _ _ => (Within.assert _).bind fun _ _ =>
    (?_ : Within _ 0 0 650 fun _ => True)).mono le_rfl le_rfl le_rfl fun _ h => h
  have hn : xSectorNbAdditionalVertices hz nb ≤ 162 := by
    unfold xSectorNbAdditionalVertices
    split_ifs <;> omega
  rcases st.1 with _ | ppos
  · exact ((Within.pure (Q := fun _ => True) () trivial).bind fun _ _ => Within.pure _ trivial).mono le_rfl
      le_rfl (by omega)
      fun _ h => h
  · exact ((within_strip _ _ _ _ _ hn).bind fun _ _ => Within.pure _ trivial)

theorem within_sector (hz r : ℝ) (nb : ℕ) (hnb : nb ≤ 80) (x y a s : ℝ) (k : ℤ) (hk : k ≤ 324)
    (nn sn : ℕ) :
    Within (xAddSector hz r nb x y a s k nn sn) 104330 104328 210600 fun _ => True := by
  unfold xAddSector
  refine ((Within.assert _).bind fun _ _ => (Within.position _ _ _).bind fun _ _ =>
    (Within.position _ _ _).bind fun _ _ => (Within.foldlM _ (fun st j =>
      within_sectorStep _ _ _ hnb _ _ _ _ _ _ st j) _ _).bind fun _ _ =>
    Within.pure _ trivial).mono ?_ ?_ ?_ fun _ h => h
  all_goals
    rw [List.length_range]
    omega

theorem within_sectors (hx hy hz r : ℝ) (nb : ℕ) (hnb : nb ≤ 80) (nn sn : ℕ) :
    Within (xAddSectors hx hy hz r nb nn sn) 417320 417312 842400 fun l => l.length ≤ 4 := by
  unfold xAddSectors
  dsimp only
  split_ifs
  · exact ((within_sector _ _ _ hnb _ _ _ _ _ (by omega) _ _).bind fun _ _ =>
      Within.pure (Q := fun l : List Sector => l.length ≤ 4) _ (by simp)).mono (by omega) (by omega)
      (by omega) fun _ h => h
  · exact ((within_sector _ _ _ hnb _ _ _ _ _ (by omega) _ _).bind fun _ _ =>
      (within_sector _ _ _ hnb _ _ _ _ _ (by omega) _ _).bind fun _ _ =>
      Within.pure (Q := fun l : List Sector => l.length ≤ 4) _ (by simp)).mono (by omega) (by omega)
      (by omega) fun _ h => h
  · exact ((within_sector _ _ _ hnb _ _ _ _ _ (by omega) _ _).bind fun _ _ =>
      (within_sector _ _ _ hnb _ _ _ _ _ (by omega) _ _).bind fun _ _ =>
      Within.pure (Q := fun l : List Sector => l.length ≤ 4) _ (by simp)).mono (by omega) (by omega)
      (by omega) fun _ h => h
  · exact ((within_sector _ _ _ hnb _ _ _ _ _ (by omega) _ _).bind fun _ _ =>
      (within_sector _ _ _ hnb _ _ _ _ _ (by omega) _ _).bind fun _ _ =>
      (within_sector _ _ _ hnb _ _ _ _ _ (by omega) _ _).bind fun _ _ =>
      (within_sector _ _ _ hnb _ _ _ _ _ (by omega) _ _).bind fun _ _ =>
      Within.pure (Q := fun l : List Sector => l.length ≤ 4) _ (by simp)).mono (by omega) (by omega)
      (by omega) fun _ h => h

theorem within_join (s t : Sector) (n : ℤ) (hn : n ≤ 162) :
    Within (xJoinSectors s t n) 0 0 652 fun _ => True := by
  unfold xJoinSectors
  refine ((Within.lift _).bind fun _ _ => (Within.lift _).bind fun _ _ => (Within.begin _).bind fun _ _ =>
    (within_vert _).bind fun _ _ => (within_vert _).bind fun _ _ => (within_vert _).bind fun _ _ =>
    (within_vert _).bind fun _ _ =>
    (Within.forM _ (fun i => (within_vert _).bind fun _ _ => (within_vert _).bind fun _ _ =>
      (within_vert _).bind fun _ _ => (within_vert _)) _).bind fun _ _ =>
    (within_vert _).bind fun _ _ => (within_vert _).bind fun _ _ => (within_vert _).bind fun _ _ =>
    (within_vert _).bind fun _ _ => Within.end).mono ?_ ?_ ?_ fun _ h => h
  all_goals
    rw [List.length_range]
    omega

theorem within_joinAll (l : List Sector) (hl : l.length ≤ 4) (n : ℤ) (hn : n ≤ 162) :
    Within (xJoinAll l n) 0 0 2616 fun _ => True := by
  unfold xJoinAll
  refine ((Within.forM _ (fun i => (Within.lift _).bind fun _ _ => (Within.lift _).bind fun _ _ =>
    within_join _ _ _ hn) _).bind fun _ _ => (?_ : Within _ 0 0 8 fun _ => True)).mono ?_ ?_ ?_ fun _ h => h
  · split_ifs
    · refine ((Within.begin _).bind fun _ _ => (Within.forM _ (fun s => within_vert _) _).bind fun _ _ =>
        Within.end.bind fun _ _ => (Within.begin _).bind fun _ _ =>
        (Within.forM _ (fun s => within_vert _) _).bind fun _ _ => Within.end).mono ?_ ?_ ?_ fun _ h => h
      all_goals
        rw [List.length_reverse]
        omega
    · exact (Within.pure () trivial).mono le_rfl le_rfl (by omega) fun _ h => h
  all_goals
    rw [List.length_range]
    omega

/-- The rounded box with at most 80 arc vertices. -/
theorem within_rounded (hx hy hz r : ℝ) (hr : r ≠ 0) (nb : ℕ) (hnb : nb ≤ 80) :
    Within (addRoundedBoxMesh hx hy hz r nb) 417320 417314 845016 fun _ => True := by
  unfold addRoundedBoxMesh
  refine ((Within.assert _).bind fun _ _ => (Within.assert _).bind fun _ _ =>
    (Within.assert _).bind fun _ _ => (?_ : Within _ 417320 417314 845016 fun _ => True)).mono
      le_rfl le_rfl le_rfl fun _ h => h
  rw [if_neg hr]
  have hn : xSectorNbAdditionalVertices hz nb ≤ 162 := by
    unfold xSectorNbAdditionalVertices
    split_ifs <;> omega
  exact ((Within.assert _).bind fun _ _ => (Within.normal _ _ _).bind fun _ _ =>
    (Within.normal _ _ _).bind fun _ _ => (within_sectors _ _ _ _ _ hnb _ _).bind fun l hl =>
    within_joinAll l hl _ hn).mono (by omega) (by omega) (by omega) fun _ h => h

end AlMath
