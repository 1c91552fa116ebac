import Verif.Lemmas.UrdfXmlNode
import Verif.Spec.UrdfXml

/-!
Lemmas on the edition of URDF documents: what becomes of the links and joints that Model/Urdf.lean
sees.
-/

namespace AlMath.UrdfXml

open AlMath.Urdf AlMath.Spec AlMath.Spec.UrdfXml

/-- An element is read as a joint. Helper of the proofs. Not in /repo: specification. -/
structure IsJoint (n : Node) (j : UJoint) : Prop where
  name : n.name = some j.name
  parent : n.parentLink = some j.parent
  child : n.childLink = some j.child
  type : n.type = j.type
  origin : n.origin = j.origin
  axis : n.axis = j.axis
  mimic : n.mimic = j.mimic.map some

/-- An element is read as a link. Helper of the proofs. Not in /repo: specification. -/
structure IsLink (n : Node) (l : ULink) : Prop where
  name : n.name = some l.name
  inertials : (n.all "inertial").map Node.toInertial = l.inertials
  visuals : (n.all "visual").map Node.origin = l.visuals
  collisions : (n.all "collision").map Node.origin = l.collisions

theorem IsJoint.unique {n : Node} {j k : UJoint} (h : IsJoint n j) (h' : IsJoint n k) : j = k := by
  obtain ⟨a1, a2, a3, a4, a5, a6, a7⟩ := h
  obtain ⟨b1, b2, b3, b4, b5, b6, b7⟩ := h'
  cases j; cases k
  simp only [UJoint.mk.injEq]
  simp only at a1 a2 a3 a4 a5 a6 a7 b1 b2 b3 b4 b5 b6 b7
  refine ⟨Option.some.inj (a1.symm.trans b1), a4.symm.trans b4, Option.some.inj (a2.symm.trans b2),
    Option.some.inj (a3.symm.trans b3), a5.symm.trans b5, a6.symm.trans b6, ?_⟩
  have := a7.symm.trans b7
  exact Option.map_injective (Option.some_injective _) this

theorem IsLink.unique {n : Node} {j k : ULink} (h : IsLink n j) (h' : IsLink n k) : j = k := by
  obtain ⟨a1, a2, a3, a4⟩ := h
  obtain ⟨b1, b2, b3, b4⟩ := h'
  cases j; cases k
  simp only [ULink.mk.injEq]
  simp only at a1 a2 a3 a4 b1 b2 b3 b4
  exact ⟨Option.some.inj (a1.symm.trans b1), a2.symm.trans b2, a3.symm.trans b3, a4.symm.trans b4⟩

/-- The four kinds of complete elements. -/
theorem read_cases (c : String × Node) (h : Complete (readElem c)) :
    (c.1 = "link" ∧ ∃ l, IsLink c.2 l ∧ docLinks [readElem c] = [l] ∧ docJoints [readElem c] = []) ∨
    (c.1 = "joint" ∧ ∃ j, IsJoint c.2 j ∧ docLinks [readElem c] = [] ∧ docJoints [readElem c] = [j]) ∨
    (c.1 ≠ "link" ∧ c.1 ≠ "joint" ∧ docLinks [readElem c] = [] ∧ docJoints [readElem c] = []) := by
  unfold readElem at h ⊢
  by_cases h1 : c.1 = "link"
  · left
    rw [if_pos h1] at h ⊢
    refine ⟨h1, ?_⟩
    simp only [Complete] at h
    obtain ⟨s, hs⟩ := Option.ne_none_iff_exists'.1 h
    exact ⟨⟨s, _, _, _⟩, ⟨hs, rfl, rfl, rfl⟩, by simp [docLinks, hs], by simp [docJoints]⟩
  · right
    rw [if_neg h1] at h ⊢
    by_cases h2 : c.1 = "joint"
    · left
      rw [if_pos h2] at h ⊢
      refine ⟨h2, ?_⟩
      simp only [Complete] at h
      obtain ⟨a1, a2, a3, a4⟩ := h
      obtain ⟨s, hs⟩ := Option.ne_none_iff_exists'.1 a1
      obtain ⟨p, hp⟩ := Option.ne_none_iff_exists'.1 a2
      obtain ⟨q, hq⟩ := Option.ne_none_iff_exists'.1 a3
      have hm : ∃ m : Option String, c.2.mimic = m.map some := by
        match h : c.2.mimic, a4 with
        | none, _ => exact ⟨none, rfl⟩
        | some (some m), _ => exact ⟨some m, rfl⟩
      obtain ⟨m, hm⟩ := hm
      refine ⟨⟨s, c.2.type, p, q, c.2.origin, c.2.axis, m⟩, ⟨hs, hp, hq, rfl, rfl, rfl, hm⟩, ?_, ?_⟩
      · simp [docLinks]
      · rw [hs, hp, hq, hm]
        cases m <;> simp [docJoints]
    · right
      rw [if_neg h2]
      exact ⟨h1, h2, rfl, rfl⟩

theorem isJoint_read {n : Node} {j : UJoint} (h : IsJoint n j) :
    Complete (readElem ("joint", n)) ∧ docLinks [readElem ("joint", n)] = [] ∧
      docJoints [readElem ("joint", n)] = [j] := by
  have hc : Complete (readElem ("joint", n)) := by
    simp only [readElem, if_neg (by decide : ¬ "joint" = "link"), if_true, Complete, h.name, h.parent,
      h.child, h.mimic]
    cases j.mimic <;> simp
  refine ⟨hc, ?_⟩
  rcases read_cases _ hc with ⟨h1, -⟩ | ⟨-, j', h1, h2⟩ | ⟨-, h1, -⟩
  · simp at h1
  · rw [h.unique h1]; exact h2
  · simp at h1

theorem isLink_read {n : Node} {l : ULink} (h : IsLink n l) :
    Complete (readElem ("link", n)) ∧ docLinks [readElem ("link", n)] = [l] ∧
      docJoints [readElem ("link", n)] = [] := by
  have hc : Complete (readElem ("link", n)) := by
    simp [readElem, Complete, h.name]
  refine ⟨hc, ?_⟩
  rcases read_cases _ hc with ⟨-, j', h1, h2⟩ | ⟨h1, -⟩ | ⟨h1, -⟩
  · rw [h.unique h1]; exact h2
  · simp at h1
  · simp at h1

theorem linksOf_cons (c : String × Node) (doc : Nodes) :
    linksOf (c :: doc) = docLinks [readElem c] ++ linksOf doc := by
  unfold linksOf
  rw [List.map_cons, docLinks_cons]

theorem jointsOf_cons (c : String × Node) (doc : Nodes) :
    jointsOf (c :: doc) = docJoints [readElem c] ++ jointsOf doc := by
  unfold jointsOf
  rw [List.map_cons, docJoints_cons]

/-- The joint of a name that a document has. -/
theorem findEl_joint {doc : Nodes} (h : ∀ c ∈ doc, Complete (readElem c)) (name : String) :
    (findEl "joint" name doc = none ∧ (jointsOf doc).find? (fun j => j.name = name) = none) ∨
    ∃ n j, findEl "joint" name doc = some n ∧ IsJoint n j ∧ j.name = name ∧
      (jointsOf doc).find? (fun j => j.name = name) = some j := by
  induction doc with
  | nil => left; exact ⟨rfl, rfl⟩
  | cons c doc ih =>
    have ih := ih fun d hd => h d (List.mem_cons_of_mem _ hd)
    rw [jointsOf_cons]
    by_cases hc : c.1 = "joint" ∧ c.2.name = some name
    · right
      rcases read_cases c (h c List.mem_cons_self) with ⟨h1, -⟩ | ⟨-, j, h1, h2, h3⟩ | ⟨-, h1, -⟩
      · rw [hc.1] at h1; simp at h1
      · have hn : j.name = name := Option.some.inj (h1.name.symm.trans hc.2)
        refine ⟨c.2, j, ?_, h1, hn, ?_⟩
        · simp [findEl, hc]
        · rw [h3]; simp [hn]
      · exact absurd hc.1 h1
    · have e : findEl "joint" name (c :: doc) = findEl "joint" name doc := by
        unfold findEl
        rw [List.find?_cons_of_neg (by simpa using hc)]
      have e2 : (docJoints [readElem c] ++ jointsOf doc).find? (fun j => j.name = name) =
          (jointsOf doc).find? (fun j => j.name = name) := by
        rcases read_cases c (h c List.mem_cons_self) with ⟨-, l, -, -, h3⟩ | ⟨h0, j, h1, h2, h3⟩ |
            ⟨-, -, -, h3⟩
        · rw [h3]; rfl
        · rw [h3, List.singleton_append, List.find?_cons_of_neg]
          have : j.name ≠ name := by
            rintro rfl
            exact hc ⟨h0, h1.name⟩
          simpa using this
        · rw [h3]; rfl
      rw [e, e2]
      exact ih

/-- The link of a name that a document has. -/
theorem findEl_link {doc : Nodes} (h : ∀ c ∈ doc, Complete (readElem c)) (name : String) :
    (findEl "link" name doc = none ∧ (linksOf doc).find? (fun l => l.name = name) = none) ∨
    ∃ n l, findEl "link" name doc = some n ∧ IsLink n l ∧ l.name = name ∧
      (linksOf doc).find? (fun l => l.name = name) = some l := by
  induction doc with
  | nil => left; exact ⟨rfl, rfl⟩
  | cons c doc ih =>
    have ih := ih fun d hd => h d (List.mem_cons_of_mem _ hd)
    rw [linksOf_cons]
    by_cases hc : c.1 = "link" ∧ c.2.name = some name
    · right
      rcases read_cases c (h c List.mem_cons_self) with ⟨-, j, h1, h2, h3⟩ | ⟨h1, -⟩ | ⟨h1, -⟩
      · have hn : j.name = name := Option.some.inj (h1.name.symm.trans hc.2)
        refine ⟨c.2, j, ?_, h1, hn, ?_⟩
        · simp [findEl, hc]
        · rw [h2]; simp [hn]
      · rw [hc.1] at h1; simp at h1
      · exact absurd hc.1 h1
    · have e : findEl "link" name (c :: doc) = findEl "link" name doc := by
        unfold findEl
        rw [List.find?_cons_of_neg (by simpa using hc)]
      have e2 : (docLinks [readElem c] ++ linksOf doc).find? (fun j => j.name = name) =
          (linksOf doc).find? (fun j => j.name = name) := by
        rcases read_cases c (h c List.mem_cons_self) with ⟨h0, l, h1, h2, h3⟩ | ⟨-, j, -, h2, -⟩ |
            ⟨-, -, h2, -⟩
        · rw [h2, List.singleton_append, List.find?_cons_of_neg]
          have : l.name ≠ name := by
            rintro rfl
            exact hc ⟨h0, h1.name⟩
          simpa using this
        · rw [h2]; rfl
        · rw [h2]; rfl
      rw [e, e2]
      exact ih

theorem findEl_setEl (key name : String) (n : Node) (doc : Nodes) (hn : n.name = some name)
    (h : findEl key name doc ≠ none) : findEl key name (setEl key name n doc) = some n := by
  induction doc with
  | nil => exact absurd rfl h
  | cons c doc ih =>
    simp only [setEl]
    split_ifs with hc
    · simp [findEl, hc.1, hn]
    · unfold findEl at h ih ⊢
      rw [List.find?_cons_of_neg (by simpa using hc)] at h ⊢
      exact ih h

theorem findEl_setEl_ne (key name key' name' : String) (n : Node) (doc : Nodes) (hn : n.name = some name)
    (h : key' ≠ key ∨ name' ≠ name) :
    findEl key' name' (setEl key name n doc) = findEl key' name' doc := by
  have hne : ∀ c : String × Node, c.1 = key ∧ c.2.name = some name →
      ¬ (c.1 = key' ∧ c.2.name = some name') := by
    rintro c ⟨h1, h2⟩ ⟨h3, h4⟩
    rcases h with h | h
    · exact h (h3.symm.trans h1)
    · rw [h2] at h4; exact h (Option.some.inj h4).symm
  induction doc with
  | nil => rfl
  | cons c doc ih =>
    simp only [setEl]
    split_ifs with hc
    · unfold findEl
      rw [List.find?_cons_of_neg (by simpa using hne (c.1, n) ⟨hc.1, hn⟩),
        List.find?_cons_of_neg (by simpa using hne _ hc)]
    · unfold findEl at ih ⊢
      by_cases hd : c.1 = key' ∧ c.2.name = some name'
      · rw [List.find?_cons_of_pos (by simpa using hd), List.find?_cons_of_pos (by simpa using hd)]
      · rw [List.find?_cons_of_neg (by simpa using hd), List.find?_cons_of_neg (by simpa using hd)]
        exact ih

/-- Edition of a joint. -/
theorem setEl_joint {doc : Nodes} (h : Indexable doc) {name : String} {n : Node} {j : UJoint}
    (hn : IsJoint n j) (hj : j.name = name) :
    Indexable (setEl "joint" name n doc) ∧ linksOf (setEl "joint" name n doc) = linksOf doc ∧
    jointsOf (setEl "joint" name n doc) = (jointsOf doc).map fun k => if k.name = name then j else k := by
  have key : (∀ c ∈ setEl "joint" name n doc, Complete (readElem c)) ∧
      linksOf (setEl "joint" name n doc) = linksOf doc ∧
      jointsOf (setEl "joint" name n doc) =
        (jointsOf doc).map fun k => if k.name = name then j else k := by
    obtain ⟨hc, -, hnd⟩ := h
    induction doc with
    | nil => exact ⟨by simp [setEl], rfl, rfl⟩
    | cons c doc ih =>
      have hc1 := hc c List.mem_cons_self
      have hc2 : ∀ d ∈ doc, Complete (readElem d) := fun d hd => hc d (List.mem_cons_of_mem _ hd)
      rw [jointsOf_cons, List.map_append] at hnd
      have ih := ih hc2 (List.nodup_append.1 hnd).2.1
      simp only [setEl]
      split_ifs with he
      · obtain ⟨h1, h2, h3⟩ := isJoint_read hn
        rcases read_cases c hc1 with ⟨g0, -⟩ | ⟨g0, k, g1, g2, g3⟩ | ⟨-, g0, -⟩
        · rw [he.1] at g0; simp at g0
        · have hk : k.name = name := Option.some.inj (g1.name.symm.trans he.2)
          rw [he.1]
          refine ⟨?_, ?_, ?_⟩
          · intro d hd
            rcases List.mem_cons.1 hd with rfl | hd
            · exact h1
            · exact hc2 d hd
          · rw [linksOf_cons, linksOf_cons, h2, g2]
          · rw [jointsOf_cons, jointsOf_cons, h3, g3]
            simp only [List.singleton_append, List.map_cons, hk, if_true]
            congr 1
            conv_lhs => rw [← List.map_id (jointsOf doc)]
            refine List.map_congr_left fun x hx => ?_
            have : x.name ≠ name := by
              rintro rfl
              rw [g3] at hnd
              simp only [List.map_cons, List.map_nil, List.singleton_append, List.nodup_cons] at hnd
              exact hnd.1 (by rw [hk]; exact List.mem_map_of_mem hx)
            simp [this]
        · exact absurd he.1 g0
      · refine ⟨?_, ?_, ?_⟩
        · intro d hd
          rcases List.mem_cons.1 hd with rfl | hd
          · exact hc1
          · exact ih.1 d hd
        · rw [linksOf_cons, linksOf_cons, ih.2.1]
        · rw [jointsOf_cons, jointsOf_cons, ih.2.2, List.map_append]
          congr 1
          rcases read_cases c hc1 with ⟨-, l, -, -, g⟩ | ⟨g0, k, g1, -, g⟩ | ⟨-, -, -, g⟩
          · rw [g]; rfl
          · rw [g]
            have : k.name ≠ name := by
              rintro rfl
              exact he ⟨g0, g1.name⟩
            simp [this]
          · rw [g]; rfl
  refine ⟨⟨key.1, by rw [key.2.1]; exact h.links_nodup, ?_⟩, key.2⟩
  rw [key.2.2, List.map_map]
  have e : (UJoint.name ∘ fun k => if k.name = name then j else k) = UJoint.name := by
    funext k
    simp only [Function.comp]
    split_ifs with hk
    · rw [hj, hk]
    · rfl
  rw [e]
  exact h.joints_nodup

/-- Edition of a link. -/
theorem setEl_link {doc : Nodes} (h : Indexable doc) {name : String} {n : Node} {j : ULink}
    (hn : IsLink n j) (hj : j.name = name) :
    Indexable (setEl "link" name n doc) ∧ jointsOf (setEl "link" name n doc) = jointsOf doc ∧
    linksOf (setEl "link" name n doc) = (linksOf doc).map fun k => if k.name = name then j else k := by
  have key : (∀ c ∈ setEl "link" name n doc, Complete (readElem c)) ∧
      jointsOf (setEl "link" name n doc) = jointsOf doc ∧
      linksOf (setEl "link" name n doc) =
        (linksOf doc).map fun k => if k.name = name then j else k := by
    obtain ⟨hc, hnd, -⟩ := h
    induction doc with
    | nil => exact ⟨by simp [setEl], rfl, rfl⟩
    | cons c doc ih =>
      have hc1 := hc c List.mem_cons_self
      have hc2 : ∀ d ∈ doc, Complete (readElem d) := fun d hd => hc d (List.mem_cons_of_mem _ hd)
      rw [linksOf_cons, List.map_append] at hnd
      have ih := ih hc2 (List.nodup_append.1 hnd).2.1
      simp only [setEl]
      split_ifs with he
      · obtain ⟨h1, h2, h3⟩ := isLink_read hn
        rcases read_cases c hc1 with ⟨g0, k, g1, g2, g3⟩ | ⟨g0, -⟩ | ⟨g0, -⟩
        · have hk : k.name = name := Option.some.inj (g1.name.symm.trans he.2)
          rw [he.1]
          refine ⟨?_, ?_, ?_⟩
          · intro d hd
            rcases List.mem_cons.1 hd with rfl | hd
            · exact h1
            · exact hc2 d hd
          · rw [jointsOf_cons, jointsOf_cons, h3, g3]
          · rw [linksOf_cons, linksOf_cons, h2, g2]
            simp only [List.singleton_append, List.map_cons, hk, if_true]
            congr 1
            conv_lhs => rw [← List.map_id (linksOf doc)]
            refine List.map_congr_left fun x hx => ?_
            have : x.name ≠ name := by
              rintro rfl
              rw [g2] at hnd
              simp only [List.map_cons, List.map_nil, List.singleton_append, List.nodup_cons] at hnd
              exact hnd.1 (by rw [hk]; exact List.mem_map_of_mem hx)
            simp [this]
        · rw [he.1] at g0; simp at g0
        · exact absurd he.1 g0
      · refine ⟨?_, ?_, ?_⟩
        · intro d hd
          rcases List.mem_cons.1 hd with rfl | hd
          · exact hc1
          · exact ih.1 d hd
        · rw [jointsOf_cons, jointsOf_cons, ih.2.1]
        · rw [linksOf_cons, linksOf_cons, ih.2.2, List.map_append]
          congr 1
          rcases read_cases c hc1 with ⟨g0, k, g1, g, -⟩ | ⟨-, l, -, g, -⟩ | ⟨-, -, g, -⟩
          · rw [g]
            have : k.name ≠ name := by
              rintro rfl
              exact he ⟨g0, g1.name⟩
            simp [this]
          · rw [g]; rfl
          · rw [g]; rfl
  refine ⟨⟨key.1, ?_, by rw [key.2.1]; exact h.joints_nodup⟩, key.2⟩
  rw [key.2.2, List.map_map]
  have e : (ULink.name ∘ fun k => if k.name = name then j else k) = ULink.name := by
    funext k
    simp only [Function.comp]
    split_ifs with hk
    · rw [hj, hk]
    · rfl
  rw [e]
  exact h.links_nodup

theorem eraseEl_sublist (key name : String) (doc : Nodes) : (eraseEl key name doc).Sublist doc := by
  induction doc with
  | nil => exact List.Sublist.refl _
  | cons c doc ih =>
    simp only [eraseEl]
    split_ifs
    · exact List.sublist_cons_self _ _
    · exact ih.cons_cons _

/-- Removal of a joint. -/
theorem eraseEl_joint {doc : Nodes} (h : Indexable doc) (name : String) :
    Indexable (eraseEl "joint" name doc) ∧ linksOf (eraseEl "joint" name doc) = linksOf doc ∧
    jointsOf (eraseEl "joint" name doc) = (jointsOf doc).filter fun k => k.name ≠ name := by
  have key : linksOf (eraseEl "joint" name doc) = linksOf doc ∧
      jointsOf (eraseEl "joint" name doc) = (jointsOf doc).filter fun k => k.name ≠ name := by
    obtain ⟨hc, -, hnd⟩ := h
    induction doc with
    | nil => exact ⟨rfl, rfl⟩
    | cons c doc ih =>
      have hc1 := hc c List.mem_cons_self
      have hc2 : ∀ d ∈ doc, Complete (readElem d) := fun d hd => hc d (List.mem_cons_of_mem _ hd)
      rw [jointsOf_cons, List.map_append] at hnd
      have ih := ih hc2 (List.nodup_append.1 hnd).2.1
      simp only [eraseEl]
      split_ifs with he
      · rcases read_cases c hc1 with ⟨g0, -⟩ | ⟨g0, k, g1, g2, g3⟩ | ⟨-, g0, -⟩
        · rw [he.1] at g0; simp at g0
        · have hk : k.name = name := Option.some.inj (g1.name.symm.trans he.2)
          refine ⟨by rw [linksOf_cons, g2]; rfl, ?_⟩
          rw [jointsOf_cons, g3, List.singleton_append, List.filter_cons_of_neg (by simpa using hk)]
          symm
          rw [List.filter_eq_self]
          intro x hx
          have : x.name ≠ name := by
            rintro rfl
            rw [g3] at hnd
            simp only [List.map_cons, List.map_nil, List.singleton_append, List.nodup_cons] at hnd
            exact hnd.1 (by rw [hk]; exact List.mem_map_of_mem hx)
          simpa using this
        · exact absurd he.1 g0
      · refine ⟨by rw [linksOf_cons, linksOf_cons, ih.1], ?_⟩
        rw [jointsOf_cons, jointsOf_cons, ih.2, List.filter_append]
        congr 1
        rcases read_cases c hc1 with ⟨-, l, -, -, g⟩ | ⟨g0, k, g1, -, g⟩ | ⟨-, -, -, g⟩
        · rw [g]; rfl
        · rw [g]
          have : k.name ≠ name := by
            rintro rfl
            exact he ⟨g0, g1.name⟩
          simp [this]
        · rw [g]; rfl
  refine ⟨⟨fun c hc => h.complete c ((eraseEl_sublist _ _ _).subset hc),
    by rw [key.1]; exact h.links_nodup, ?_⟩, key⟩
  rw [key.2]
  exact h.joints_nodup.sublist ((List.filter_sublist).map _)

/-- Removal of a link. -/
theorem eraseEl_link {doc : Nodes} (h : Indexable doc) (name : String) :
    Indexable (eraseEl "link" name doc) ∧ jointsOf (eraseEl "link" name doc) = jointsOf doc ∧
    linksOf (eraseEl "link" name doc) = (linksOf doc).filter fun k => k.name ≠ name := by
  have key : jointsOf (eraseEl "link" name doc) = jointsOf doc ∧
      linksOf (eraseEl "link" name doc) = (linksOf doc).filter fun k => k.name ≠ name := by
    obtain ⟨hc, hnd, -⟩ := h
    induction doc with
    | nil => exact ⟨rfl, rfl⟩
    | cons c doc ih =>
      have hc1 := hc c List.mem_cons_self
      have hc2 : ∀ d ∈ doc, Complete (readElem d) := fun d hd => hc d (List.mem_cons_of_mem _ hd)
      rw [linksOf_cons, List.map_append] at hnd
      have ih := ih hc2 (List.nodup_append.1 hnd).2.1
      simp only [eraseEl]
      split_ifs with he
      · rcases read_cases c hc1 with ⟨g0, k, g1, g2, g3⟩ | ⟨g0, -⟩ | ⟨g0, -⟩
        · have hk : k.name = name := Option.some.inj (g1.name.symm.trans he.2)
          refine ⟨by rw [jointsOf_cons, g3]; rfl, ?_⟩
          rw [linksOf_cons, g2, List.singleton_append, List.filter_cons_of_neg (by simpa using hk)]
          symm
          rw [List.filter_eq_self]
          intro x hx
          have : x.name ≠ name := by
            rintro rfl
            rw [g2] at hnd
            simp only [List.map_cons, List.map_nil, List.singleton_append, List.nodup_cons] at hnd
            exact hnd.1 (by rw [hk]; exact List.mem_map_of_mem hx)
          simpa using this
        · rw [he.1] at g0; simp at g0
        · exact absurd he.1 g0
      · refine ⟨by rw [jointsOf_cons, jointsOf_cons, ih.1], ?_⟩
        rw [linksOf_cons, linksOf_cons, ih.2, List.filter_append]
        congr 1
        rcases read_cases c hc1 with ⟨g0, k, g1, g, -⟩ | ⟨-, l, -, g, -⟩ | ⟨-, -, g, -⟩
        · rw [g]
          have : k.name ≠ name := by
            rintro rfl
            exact he ⟨g0, g1.name⟩
          simp [this]
        · rw [g]; rfl
        · rw [g]; rfl
  refine ⟨⟨fun c hc => h.complete c ((eraseEl_sublist _ _ _).subset hc), ?_,
    by rw [key.1]; exact h.joints_nodup⟩, key⟩
  rw [key.2]
  exact h.links_nodup.sublist ((List.filter_sublist).map _)

end AlMath.UrdfXml
