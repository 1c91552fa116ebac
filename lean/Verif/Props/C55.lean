import Verif.Props.C54

/-!
C55: edition of tangents.
-/

namespace AlMath

open Anim

namespace Spec

/-- All the tangents of the key are for the left or the right side. Not in /repo: specification. -/
def WellSided (key : PTree) : Prop := ∀ c ∈ key.children, c.1 = "Tangent" → ∃ s, HasSide c.2 s

/-- The child is a tangent for the side. Not in /repo: specification. -/
def IsTangentOf (side : Side) (c : String × PTree) : Prop := c.1 = "Tangent" ∧ HasSide c.2 side

open Classical in
/-- Number of tangents for the side. Not in /repo: specification. -/
noncomputable def numTangents (side : Side) (key : PTree) : ℕ :=
  key.children.countP fun c => IsTangentOf side c

end Spec

open Spec

/-! ### Attributes -/

theorem find_putChild_same (k : String) (f : PTree → PTree) (d d' : Data) (l : List (String × PTree)) :
    (PTree.node d (putChild k f l)).find k = some (f (((PTree.node d' l).find k).getD .empty)) := by
  induction l with
  | nil => simp [putChild, PTree.find, PTree.children]
  | cons c l ih =>
    simp only [PTree.find, PTree.children] at ih ⊢
    by_cases h : c.1 = k
    · simp [putChild, h]
    · simp only [putChild, if_neg h]
      rw [List.find?_cons_of_neg (by simpa using h), List.find?_cons_of_neg (by simpa using h)]
      exact ih

theorem find_putChild_ne (k k' : String) (hk : k' ≠ k) (f : PTree → PTree) (d d' : Data)
    (l : List (String × PTree)) :
    (PTree.node d (putChild k f l)).find k' = (PTree.node d' l).find k' := by
  induction l with
  | nil => simp [putChild, PTree.find, PTree.children, hk.symm]
  | cons c l ih =>
    simp only [PTree.find, PTree.children] at ih ⊢
    by_cases h : c.1 = k
    · simp only [putChild, if_pos h]
      rw [List.find?_cons_of_neg (by simp only [h, decide_eq_true_eq]; exact hk.symm),
        List.find?_cons_of_neg (by simp only [h, decide_eq_true_eq]; exact hk.symm)]
    · simp only [putChild, if_neg h]
      by_cases h' : c.1 = k'
      · rw [List.find?_cons_of_pos (by simpa using h'), List.find?_cons_of_pos (by simpa using h')]
      · rw [List.find?_cons_of_neg (by simpa using h'), List.find?_cons_of_neg (by simpa using h')]
        exact ih

theorem node_eta (pt : PTree) : PTree.node pt.data pt.children = pt := by cases pt; rfl

theorem attr_putAttr_same (name : String) (d : Data) (pt : PTree) :
    (putAttr name d pt).attr name = some d := by
  unfold PTree.attr putAttr
  rw [find_putChild_same _ _ _ pt.data]
  simp only [Option.bind_some]
  rw [find_putChild_same _ _ _ (.str "")]
  rfl

theorem attr_putAttr_ne (name name' : String) (hn : name' ≠ name) (d : Data) (pt : PTree) :
    (putAttr name d pt).attr name' = pt.attr name' := by
  unfold PTree.attr putAttr
  rw [find_putChild_same _ _ _ pt.data, node_eta]
  simp only [Option.bind_some]
  cases h : pt.find "<xmlattr>" with
  | none =>
    rw [find_putChild_ne _ _ hn _ _ (.str "")]
    simp [PTree.empty, PTree.children, PTree.find]
  | some x =>
    rw [find_putChild_ne _ _ hn _ _ x.data]
    simp [node_eta]

/-! ### C55 -/

/-- `require_tangent` on any key: the tangent found is the first one for the side, and the key does
not change; if all tangents are for the other side, exactly one tangent is added at the end, for the
side and with no other attribute; otherwise (a tangent with a malformed side comes first) it throws
and the key does not change. -/
theorem C55_require (key : PTree) (side : Side) :
    (∃ i t, requireTangent key side = (.ok i, key) ∧ key.children[i]? = some ("Tangent", t) ∧
      FirstTangent key side t) ∨
    (∃ t, requireTangent key side =
        (.ok key.children.length, .node key.data (key.children ++ [("Tangent", t)])) ∧
      (∀ c ∈ key.children, c.1 = "Tangent" → ∃ s, s ≠ side ∧ HasSide c.2 s) ∧
      FirstTangent (.node key.data (key.children ++ [("Tangent", t)])) side t ∧
      ∀ name, name ≠ "side" → t.attr name = none) ∨
    (requireTangent key side = (.throws, key) ∧ ¬ WellSided key) := by
  obtain ⟨h1, h2, h3⟩ := findTangent_spec side key.children 0
  unfold requireTangent getTangentOptional
  cases hf : findTangent side key.children 0 with
  | ok o =>
    cases o with
    | some k =>
      left
      obtain ⟨l1, t, l2, e, hk, ha, hb⟩ := (h2 k).1 hf
      refine ⟨k, t, rfl, ?_, l1, l2, e, ha, hb⟩
      rw [e, hk]
      simp
    | none =>
      right; left
      have hno := h3.1 hf
      have hside : HasSide (putSide .empty side) side := by
        unfold HasSide putSide
        rw [attr_putAttr_same]
        cases side <;> rfl
      refine ⟨putSide .empty side, rfl, hno, ⟨key.children, [], rfl, hside, hno⟩, ?_⟩
      intro name hn
      unfold putSide
      rw [attr_putAttr_ne _ _ hn]
      rfl
  | throws =>
    right; right
    refine ⟨rfl, ?_⟩
    intro hw
    by_cases h : ∀ c ∈ key.children, c.1 = "Tangent" → ∃ s, s ≠ side ∧ HasSide c.2 s
    · rw [h3.2 h] at hf
      cases hf
    · -- the first tangent for the side
      have : ∀ l : List (String × PTree), (∀ c ∈ l, c.1 = "Tangent" → ∃ s, HasSide c.2 s) →
          (¬ ∀ c ∈ l, c.1 = "Tangent" → ∃ s, s ≠ side ∧ HasSide c.2 s) →
          ∃ l1 t l2, l = l1 ++ ("Tangent", t) :: l2 ∧ HasSide t side ∧
            ∀ c ∈ l1, c.1 = "Tangent" → ∃ s, s ≠ side ∧ HasSide c.2 s := by
        intro l
        induction l with
        | nil => intro _ h; exact absurd (by simp) h
        | cons c l ih =>
          intro hw h
          by_cases hc : c.1 = "Tangent" → ∃ s, s ≠ side ∧ HasSide c.2 s
          · obtain ⟨l1, t, l2, rfl, ha, hb⟩ := ih (fun c hc => hw c (List.mem_cons_of_mem _ hc)) (by
              intro h'
              apply h
              intro c' hc'
              rcases List.mem_cons.1 hc' with rfl | hc'
              · exact hc
              · exact h' c' hc')
            refine ⟨c :: l1, t, l2, rfl, ha, ?_⟩
            intro c' hc'
            rcases List.mem_cons.1 hc' with rfl | hc'
            · exact hc
            · exact hb c' hc'
          · push Not at hc
            obtain ⟨ht, hn⟩ := hc
            obtain ⟨s, hs⟩ := hw c (by simp) ht
            have e : s = side := by
              by_contra hne
              exact hn s hne hs
            exact ⟨[], c.2, l, by rw [← ht]; rfl, e ▸ hs, by simp⟩
      obtain ⟨l1, t, l2, e, ha, hb⟩ := this key.children hw h
      rw [(h2 _).2 ⟨l1, t, l2, e, rfl, ha, hb⟩] at hf
      cases hf
  | ub => exact absurd hf h1

/-- `require_tangent` never creates a second tangent for a side. -/
theorem C55_no_second (key key' : PTree) (side : Side) (i : ℕ)
    (h : requireTangent key side = (.ok i, key')) :
    numTangents side key' = max 1 (numTangents side key) ∧
      ∀ s, s ≠ side → numTangents s key' = numTangents s key := by
  classical
  rcases C55_require key side with ⟨k, t, e, -, ⟨l1, l2, hl, ht, hb⟩⟩ | ⟨t, e, hno, ⟨l1, l2, hl, ht, hb⟩, -⟩ |
    ⟨e, -⟩
  · rw [e] at h
    simp only [Prod.mk.injEq] at h
    obtain ⟨-, rfl⟩ := h
    refine ⟨?_, fun _ _ => rfl⟩
    have : 1 ≤ numTangents side key := by
      unfold numTangents
      rw [Nat.one_le_iff_ne_zero, ← Nat.pos_iff_ne_zero, List.countP_pos_iff]
      refine ⟨("Tangent", t), by rw [hl]; simp, ?_⟩
      simp only [decide_eq_true_eq]
      exact ⟨rfl, ht⟩
    omega
  · rw [e] at h
    simp only [Prod.mk.injEq] at h
    obtain ⟨-, rfl⟩ := h
    have hside : HasSide t side := by
      have h1 := (getTangent_iff (.node key.data (key.children ++ [("Tangent", t)])) side t).2
        ⟨l1, l2, hl, ht, hb⟩
      exact ht
    constructor
    · unfold numTangents
      rw [children_node, List.countP_append]
      have z : key.children.countP (fun c => (decide (IsTangentOf side c))) = 0 := by
        rw [List.countP_eq_zero]
        intro c hc
        simp only [decide_eq_true_eq]
        rintro ⟨h1, h2⟩
        obtain ⟨s, hs, hs'⟩ := hno c hc h1
        exact hs (hasSide_unique hs' h2)
      rw [z]
      rw [List.countP_cons_of_pos (by simp only [decide_eq_true_eq]; exact ⟨rfl, hside⟩)]
      simp
    · intro s hs
      unfold numTangents
      rw [children_node, List.countP_append, List.countP_cons_of_neg]
      · simp
      · simp only [decide_eq_true_eq]
        rintro ⟨-, h2⟩
        exact hs (hasSide_unique h2 hside)
  · rw [e] at h
    simp at h

theorem tangent_edit (t : PTree) (x y : ℝ) :
    let t' := putOrdinate (putAbscissa t x) y
    NumAttr t' "abscissaParam" x ∧ NumAttr t' "ordinateParam" y ∧
      ∀ name, name ≠ "abscissaParam" → name ≠ "ordinateParam" → t'.attr name = t.attr name := by
  refine ⟨?_, attr_putAttr_same _ _ _, ?_⟩
  · unfold NumAttr putOrdinate putAbscissa
    rw [attr_putAttr_ne _ _ (by decide), attr_putAttr_same]
  · intro name h1 h2
    unfold putOrdinate putAbscissa
    rw [attr_putAttr_ne _ _ h2, attr_putAttr_ne _ _ h1]

theorem editChild_at (d : Data) (l1 l2 : List (String × PTree)) (c : String × PTree)
    (f : PTree → PTree) :
    editChild (.node d (l1 ++ c :: l2)) l1.length f = .node d (l1 ++ (c.1, f c.2) :: l2) := by
  unfold editChild
  congr 1
  rw [children_node]
  induction l1 with
  | nil => rfl
  | cons b l1 ih => simp [List.modify_succ_cons, ih]

theorem find_xmlattr_tangent (d d' : Data) (l1 l2 : List (String × PTree)) (t t' : PTree) (key : String)
    (hk : key ≠ "Tangent") :
    (PTree.node d (l1 ++ ("Tangent", t) :: l2)).find key =
      (PTree.node d' (l1 ++ ("Tangent", t') :: l2)).find key := by
  simp only [PTree.find, PTree.children, List.find?_append]
  rw [List.find?_cons_of_neg (by simpa using hk.symm), List.find?_cons_of_neg (by simpa using hk.symm)]

/-- The other side does not see an edition of a tangent of this side. -/
theorem firstTangent_other (d d' : Data) (l1 l2 : List (String × PTree)) (t t' u : PTree) (s side : Side)
    (hs : s ≠ side) (ht : HasSide t side) (ht' : HasSide t' side) :
    FirstTangent (.node d (l1 ++ ("Tangent", t) :: l2)) s u →
      FirstTangent (.node d' (l1 ++ ("Tangent", t') :: l2)) s u := by
  rintro ⟨m1, m2, e, hu, hb⟩
  rw [children_node] at e
  unfold FirstTangent
  rw [children_node]
  rcases List.append_eq_append_iff.1 e with ⟨a, rfl, h⟩ | ⟨a, rfl, h⟩
  · cases a with
    | nil =>
      simp only [List.nil_append, List.cons.injEq, Prod.mk.injEq, true_and] at h
      obtain ⟨rfl, rfl⟩ := h
      exact absurd (hasSide_unique hu ht) hs
    | cons b a =>
      simp only [List.cons_append, List.cons.injEq] at h
      obtain ⟨rfl, rfl⟩ := h
      refine ⟨l1 ++ ("Tangent", t') :: a, m2, by simp, hu, ?_⟩
      intro c hc htag
      rcases List.mem_append.1 hc with hc | hc
      · exact hb c (by simp [hc]) htag
      · rcases List.mem_cons.1 hc with rfl | hc
        · exact ⟨side, hs.symm, ht'⟩
        · exact hb c (by simp [hc]) htag
  · cases a with
    | nil =>
      simp only [List.nil_append, List.cons.injEq, Prod.mk.injEq, true_and] at h
      obtain ⟨rfl, rfl⟩ := h
      exact absurd (hasSide_unique hu ht) hs
    | cons b a =>
      simp only [List.cons_append, List.cons.injEq] at h
      obtain ⟨rfl, rfl⟩ := h
      exact ⟨m1, a ++ ("Tangent", t') :: l2, by simp, hu, hb⟩

theorem firstTangent_append (d d' : Data) (l : List (String × PTree)) (t u : PTree) (s side : Side)
    (hs : s ≠ side) (ht : HasSide t side) :
    FirstTangent (.node d (l ++ [("Tangent", t)])) s u ↔ FirstTangent (.node d' l) s u := by
  unfold FirstTangent
  rw [children_node, children_node]
  constructor
  · rintro ⟨m1, m2, e, hu, hb⟩
    rcases List.append_eq_append_iff.1 e with ⟨a, h1, h⟩ | ⟨a, h1, h⟩
    · cases a with
      | nil =>
        simp only [List.nil_append, List.cons.injEq, Prod.mk.injEq, true_and] at h
        obtain ⟨rfl, -⟩ := h
        exact absurd (hasSide_unique hu ht) hs
      | cons b a => simp at h
    · cases a with
      | nil =>
        simp only [List.nil_append, List.cons.injEq, Prod.mk.injEq, true_and] at h
        obtain ⟨rfl, -⟩ := h
        exact absurd (hasSide_unique hu ht) hs
      | cons b a =>
        simp only [List.cons_append, List.cons.injEq] at h
        obtain ⟨rfl, -⟩ := h
        exact ⟨m1, a, h1, hu, hb⟩
  · rintro ⟨m1, m2, e, hu, hb⟩
    exact ⟨m1, m2 ++ [("Tangent", t)], by rw [e]; simp, hu, hb⟩

/-- `put_tangent` on any key: either it stores the values in the tangent that `get_tangent` then
returns, and the attributes of the key, the other attributes of the tangent, the number of tangents
for the other side and the tangent of the other side stay the same; or, the key having a tangent with
a malformed side, it throws and the key does not change. -/
theorem C55_put (key : PTree) (side : Side) (x y : ℝ) :
    (∃ i key' t, putTangent key side x y = (.ok i, key') ∧ key'.children[i]? = some ("Tangent", t) ∧
      FirstTangent key' side t ∧ getTangent key' side = .ok t ∧
      getAbscissa t = .ok x ∧ getOrdinate t = .ok y ∧
      (∀ t0, FirstTangent key side t0 → ∀ name, name ≠ "abscissaParam" → name ≠ "ordinateParam" →
        t.attr name = t0.attr name) ∧
      key'.data = key.data ∧ (∀ name, key'.attr name = key.attr name) ∧
      (∀ j c, j ≠ i → (key'.children[j]? = some c ↔ key.children[j]? = some c)) ∧
      ∀ s u, s ≠ side → (FirstTangent key' s u ↔ FirstTangent key s u)) ∨
    (putTangent key side x y = (.throws, key) ∧ ¬ WellSided key) := by
  unfold putTangent
  rcases C55_require key side with ⟨k, t, e, hat, ⟨l1, l2, hl, ht, hb⟩⟩ |
      ⟨t, e, hno, ⟨l1, l2, hl, ht, hb⟩, hnone⟩ | ⟨e, hw⟩
  · left
    rw [e]
    simp only
    have hk : k = l1.length := by
      -- the position of the first tangent
      have h := findTangent_spec side key.children 0
      have h1 : requireTangent key side = (.ok l1.length, key) := by
        unfold requireTangent getTangentOptional
        rw [(h.2.1 (0 + l1.length)).2 ⟨l1, t, l2, hl, rfl, ht, hb⟩]
        simp
      rw [e] at h1
      simpa using h1
    subst hk
    have hkey : key = .node key.data (l1 ++ ("Tangent", t) :: l2) := by rw [← hl, node_eta]
    have hedit : editChild key l1.length (fun t => putOrdinate (putAbscissa t x) y) =
        .node key.data (l1 ++ ("Tangent", putOrdinate (putAbscissa t x) y) :: l2) := by
      conv_lhs => rw [hkey]
      rw [editChild_at]
    rw [hedit]
    obtain ⟨hx, hy, hother⟩ := tangent_edit t x y
    have ht' : HasSide (putOrdinate (putAbscissa t x) y) side := by
      unfold HasSide
      rw [hother _ (by decide) (by decide)]
      exact ht
    have hft : FirstTangent (.node key.data (l1 ++ ("Tangent", putOrdinate (putAbscissa t x) y) :: l2))
        side (putOrdinate (putAbscissa t x) y) := ⟨l1, l2, rfl, ht', hb⟩
    refine ⟨_, _, _, rfl, ?_, hft, (getTangent_iff _ _ _).2 hft, (getAbscissa_iff _ _).2 hx,
      (getOrdinate_iff _ _).2 hy, ?_, rfl, ?_, ?_, ?_⟩
    · rw [children_node]; simp
    · intro t0 h0 name n1 n2
      have e1 := (getTangent_iff _ _ _).2 h0
      have e2 := (getTangent_iff key side t).2 ⟨l1, l2, hl, ht, hb⟩
      rw [e1] at e2
      rw [Res.ok.inj e2]
      exact hother name n1 n2
    · intro name
      unfold PTree.attr
      rw [find_xmlattr_tangent key.data key.data l1 l2 _ t _ (by decide), ← hl, node_eta]
    · intro j c hj
      rw [hl, children_node]
      rcases lt_or_gt_of_ne hj with hj | hj
      · rw [List.getElem?_append_left hj, List.getElem?_append_left hj]
      · rw [List.getElem?_append_right (by omega), List.getElem?_append_right (by omega)]
        obtain ⟨m, hm⟩ := Nat.exists_eq_succ_of_ne_zero (by omega : j - l1.length ≠ 0)
        rw [hm, Nat.succ_eq_add_one, List.getElem?_cons_succ, List.getElem?_cons_succ]
    · intro s u hs
      constructor
      · intro h
        rw [hkey]
        exact firstTangent_other _ _ l1 l2 _ _ u s side hs ht' ht h
      · intro h
        rw [hkey] at h
        exact firstTangent_other _ _ l1 l2 _ _ u s side hs ht ht' h
  · left
    rw [e]
    simp only
    rw [editChild_at]
    simp only
    obtain ⟨hx, hy, hother⟩ := tangent_edit t x y
    have ht' : HasSide (putOrdinate (putAbscissa t x) y) side := by
      unfold HasSide
      rw [hother _ (by decide) (by decide)]
      exact ht
    have hft : FirstTangent (.node key.data (key.children ++ [("Tangent", putOrdinate (putAbscissa t x) y)]))
        side (putOrdinate (putAbscissa t x) y) := ⟨key.children, [], rfl, ht', hno⟩
    refine ⟨_, _, _, rfl, ?_, hft, (getTangent_iff _ _ _).2 hft, (getAbscissa_iff _ _).2 hx,
      (getOrdinate_iff _ _).2 hy, ?_, rfl, ?_, ?_, ?_⟩
    · rw [children_node]; simp
    · rintro t0 ⟨m1, m2, hm, h0, -⟩
      exfalso
      obtain ⟨s, hs, hs'⟩ := hno ("Tangent", t0) (by rw [hm]; simp) rfl
      exact hs (hasSide_unique hs' h0)
    · intro name
      unfold PTree.attr PTree.find
      rw [children_node, List.find?_append]
      cases h : key.children.find? fun c => decide (c.1 = "<xmlattr>") <;> simp
    · intro j c hj
      rw [children_node]
      rcases lt_or_gt_of_ne hj with hj | hj
      · rw [List.getElem?_append_left hj]
      · rw [List.getElem?_eq_none (by simp; omega), List.getElem?_eq_none (by omega)]
    · intro s u hs
      rw [firstTangent_append _ key.data _ _ u s side hs ht', node_eta]
  · right
    rw [e]
    exact ⟨rfl, hw⟩

/-- A key with a well formed left tangent and another element. Helper of the proofs. Not in /repo:
specification. -/
noncomputable def leftKey : PTree :=
  .node (.str "") [("<xmlattr>", .empty), ("Tangent", tangentElem "left" (-1) 2)]

theorem tangentElem_side (side : Side) (x y : ℝ) : HasSide (tangentElem (sideText side) x y) side := by
  simp [HasSide, tangentElem, PTree.attr, PTree.find, PTree.children, PTree.data]

example : WellSided leftKey ∧ FirstTangent leftKey .left (tangentElem "left" (-1) 2) ∧
    (requireTangent leftKey .left).1 = .ok 1 ∧ (requireTangent leftKey .right).1 = .ok 2 := by
  have hs := tangentElem_side .left (-1) 2
  have hg := (getSide_iff _ _).2 hs
  simp only [sideText] at hs hg
  refine ⟨?_, ⟨[_], [], rfl, hs, by simp⟩, ?_, ?_⟩
  · intro c hc ht
    simp only [leftKey, children_node, List.mem_cons, List.not_mem_nil, or_false] at hc
    rcases hc with rfl | rfl
    · simp at ht
    · exact ⟨_, hs⟩
  · simp [requireTangent, getTangentOptional, leftKey, PTree.children, findTangent, hg]
  · simp [requireTangent, getTangentOptional, leftKey, PTree.children, findTangent, hg, addTangent]

open Classical in
/-- `erase_tangent` on a key whose tangents have well formed sides: removes exactly the tangents of
that side and returns their number. What is missing: with a malformed side the call throws, after
part of the tangents were erased, see `C55_erase_malformed` and `C55_erase_not_atomic`. -/
theorem C55_erase_partial (key : PTree) (side : Side) (hw : WellSided key) :
    eraseTangent key side = (.ok (numTangents side key),
      .node key.data (key.children.filter fun c => ¬ IsTangentOf side c)) := by
  have : ∀ l : List (String × PTree), (∀ c ∈ l, c.1 = "Tangent" → ∃ s, HasSide c.2 s) →
      eraseLoop side l = (.ok (l.countP fun c => IsTangentOf side c),
        l.filter fun c => ¬ IsTangentOf side c) := by
    intro l
    induction l with
    | nil => intro _; rfl
    | cons c l ih =>
      intro h
      have ih' := ih fun c hc => h c (List.mem_cons_of_mem _ hc)
      unfold eraseLoop
      rw [ih']
      by_cases ht : c.1 = "Tangent"
      · obtain ⟨s, hs⟩ := h c (by simp) ht
        rw [if_pos ht, (getSide_iff _ _).2 hs]
        simp only
        by_cases e : s = side
        · have hi : IsTangentOf side c := ⟨ht, e ▸ hs⟩
          rw [if_pos e, List.countP_cons_of_pos (by simpa using hi), List.filter_cons_of_neg (by simpa using hi)]
          rfl
        · have hi : ¬ IsTangentOf side c := fun h => e (hasSide_unique hs h.2)
          rw [if_neg e, List.countP_cons_of_neg (by simpa using hi), List.filter_cons_of_pos (by simpa using hi)]
      · have hi : ¬ IsTangentOf side c := fun h => ht h.1
        rw [if_neg ht, List.countP_cons_of_neg (by simpa using hi), List.filter_cons_of_pos (by simpa using hi)]
  unfold eraseTangent numTangents
  rw [this _ hw]

open Classical in
/-- `erase_tangent` on a key with a malformed tangent: throws, after the tangents of the side placed
before the first malformed one were erased. -/
theorem C55_erase_malformed (key : PTree) (side : Side) (l1 l2 : List (String × PTree))
    (c : String × PTree) (hk : key.children = l1 ++ c :: l2)
    (hl1 : ∀ c ∈ l1, c.1 = "Tangent" → ∃ s, HasSide c.2 s) (hc : c.1 = "Tangent")
    (hbad : ∀ s, ¬ HasSide c.2 s) :
    eraseTangent key side = (.throws,
      .node key.data ((l1.filter fun c => ¬ IsTangentOf side c) ++ c :: l2)) := by
  have : ∀ l : List (String × PTree), (∀ c ∈ l, c.1 = "Tangent" → ∃ s, HasSide c.2 s) →
      eraseLoop side (l ++ c :: l2) = (.throws, (l.filter fun c => ¬ IsTangentOf side c) ++ c :: l2) := by
    intro l
    induction l with
    | nil =>
      intro _
      simp only [List.nil_append, List.filter_nil]
      unfold eraseLoop
      rw [if_pos hc]
      cases hs : getSide c.2 with
      | ok s => exact absurd ((getSide_iff _ _).1 hs) (hbad s)
      | throws => rfl
      | ub => exact absurd hs (getSide_ne_ub _)
    | cons d l ih =>
      intro h
      have ih' := ih fun c hc => h c (List.mem_cons_of_mem _ hc)
      simp only [List.cons_append]
      unfold eraseLoop
      rw [ih']
      by_cases ht : d.1 = "Tangent"
      · obtain ⟨s, hs⟩ := h d (by simp) ht
        rw [if_pos ht, (getSide_iff _ _).2 hs]
        simp only
        by_cases e : s = side
        · have hi : IsTangentOf side d := ⟨ht, e ▸ hs⟩
          rw [if_pos e, List.filter_cons_of_neg (by simpa using hi)]
          rfl
        · have hi : ¬ IsTangentOf side d := fun h => e (hasSide_unique hs h.2)
          rw [if_neg e, List.filter_cons_of_pos (by simpa using hi)]
          rfl
      · have hi : ¬ IsTangentOf side d := fun h => ht h.1
        rw [if_neg ht, List.filter_cons_of_pos (by simpa using hi)]
        rfl
  unfold eraseTangent
  rw [hk, this l1 hl1]

/-- `erase_tangent` may throw after it erased a tangent. -/
theorem C55_erase_not_atomic :
    let key : PTree := .node (.str "") [("Tangent", tangentElem "left" (-1) 2),
      ("Tangent", tangentElem "middle" 1 0)]
    eraseTangent key .left = (.throws, .node (.str "") [("Tangent", tangentElem "middle" 1 0)]) := by
  have hs := tangentElem_side .left (-1) 2
  simp only [sideText] at hs
  intro key
  rw [C55_erase_malformed key .left [("Tangent", tangentElem "left" (-1) 2)] [] _ rfl _ rfl]
  · have hi : IsTangentOf .left ("Tangent", tangentElem "left" (-1) 2) := ⟨rfl, hs⟩
    rw [List.filter_cons_of_neg (by simpa using hi)]
    rfl
  · intro s h
    have : (tangentElem "middle" 1 0).attr "side" = some (.str "middle") := by
      simp [tangentElem, PTree.attr, PTree.find, PTree.children, PTree.data]
    unfold HasSide at h
    simp only at h
    rw [this] at h
    revert h
    cases s <;> simp [sideText]
  · intro c hc _
    simp only [List.mem_cons, List.not_mem_nil, or_false] at hc
    subst hc
    exact ⟨_, hs⟩

end AlMath
