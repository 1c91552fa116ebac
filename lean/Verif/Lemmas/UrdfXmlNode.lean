import Verif.Model.UrdfXml

/-!
Lemmas on the reading and the edition of the elements of a URDF document.
-/

namespace AlMath.UrdfXml

open AlMath.Urdf

namespace Node

@[simp] theorem text_mk (t : Text) (c : Nodes) : (Node.mk t c).text = t := rfl
@[simp] theorem children_mk (t : Text) (c : Nodes) : (Node.mk t c).children = c := rfl
@[simp] theorem children_empty : Node.empty.children = [] := rfl

theorem find_empty (k : String) : Node.empty.find k = none := rfl

theorem find_setFirst (k : String) (v : Node) (l : Nodes) :
    (setFirst k v l).find? (fun c => c.1 = k) = some (k, v) := by
  induction l with
  | nil => simp [setFirst]
  | cons c l ih =>
    simp only [setFirst]
    split_ifs with h
    · simp
    · rw [List.find?_cons_of_neg (by simpa using h), ih]

theorem find_setFirst_ne (k k' : String) (v : Node) (l : Nodes) (h : k' ≠ k) :
    (setFirst k v l).find? (fun c => c.1 = k') = l.find? (fun c => c.1 = k') := by
  induction l with
  | nil => simp [setFirst, Ne.symm h]
  | cons c l ih =>
    simp only [setFirst]
    split_ifs with hc
    · rw [List.find?_cons_of_neg (by simpa using Ne.symm h),
        List.find?_cons_of_neg (by simpa [hc] using Ne.symm h)]
    · by_cases hk : c.1 = k'
      · rw [List.find?_cons_of_pos (by simpa using hk), List.find?_cons_of_pos (by simpa using hk)]
      · rw [List.find?_cons_of_neg (by simpa using hk), List.find?_cons_of_neg (by simpa using hk), ih]

theorem filter_setFirst (k : String) (v : Node) (l : Nodes) :
    (setFirst k v l).filter (fun c => c.1 ≠ k) = l.filter (fun c => c.1 ≠ k) := by
  induction l with
  | nil => simp [setFirst]
  | cons c l ih =>
    simp only [setFirst]
    split_ifs with h
    · simp [h]
    · simp only [List.filter_cons, ih]

@[simp] theorem find_putChild (k : String) (v n : Node) : (n.putChild k v).find k = some v := by
  simp [find, putChild, find_setFirst]

theorem find_putChild_ne {k k' : String} (v n : Node) (h : k' ≠ k) :
    (n.putChild k v).find k' = n.find k' := by
  simp [find, putChild, find_setFirst_ne k k' v _ h]

@[simp] theorem find_erase (k : String) (n : Node) : (n.erase k).find k = none := by
  simp [find, erase]

theorem find_erase_ne {k k' : String} (n : Node) (h : k' ≠ k) : (n.erase k).find k' = n.find k' := by
  simp only [find, erase, children_mk, List.find?_filter]
  congr 2
  funext c
  by_cases hc : c.1 = k'
  · simp [hc, h]
  · simp [hc]

theorem find_put_head (k : String) (p : List String) (t : Text) (n : Node) :
    (n.put (k :: p) t).find k = some (((n.find k).getD empty).put p t) := by
  simp [put]

theorem find_put_ne {k k' : String} (p : List String) (t : Text) (n : Node) (h : k' ≠ k) :
    (n.put (k :: p) t).find k' = n.find k' := by
  simp [put, find_putChild_ne _ _ h]

/-- Paths that part before the end of any of them. Helper of the proofs. Not in /repo:
specification. -/
def Part : List String → List String → Prop
  | k :: p, k' :: q => k' ≠ k ∨ k' = k ∧ Part p q
  | _, _ => False

theorem get_empty {p : List String} (h : p ≠ []) : Node.empty.get p = none := by
  cases p with
  | nil => exact absurd rfl h
  | cons k p => simp [get, find_empty]

theorem Part.ne_nil {p q : List String} (h : Part p q) : q ≠ [] := by
  cases p <;> cases q <;> simp_all [Part]

theorem get_put (p : List String) (t : Text) (n : Node) :
    ∃ c, (n.put p t).get p = some c ∧ c.text = t := by
  induction p generalizing n with
  | nil => exact ⟨_, rfl, rfl⟩
  | cons k p ih =>
    simp only [get, find_put_head]
    exact ih _

theorem get_put_part {p q : List String} (t : Text) (n : Node) (h : Part p q) :
    (n.put p t).get q = n.get q := by
  induction p generalizing q n with
  | nil => simp [Part] at h
  | cons k p ih =>
    cases q with
    | nil => simp [Part] at h
    | cons k' q =>
      simp only [Part] at h
      rcases h with h | ⟨rfl, h⟩
      · simp [get, find_put_ne _ _ _ h]
      · simp only [get, find_put_head, ih _ h]
        cases n.find k' with
        | none => simpa using get_empty h.ne_nil
        | some c => rfl

@[simp] theorem getStr_put (p : List String) (t : Text) (n : Node) : (n.put p t).getStr p = some t.str := by
  obtain ⟨c, h, rfl⟩ := get_put p t n
  simp [getStr, h]

@[simp] theorem getNum_put (p : List String) (t : Text) (n : Node) : (n.put p t).getNum p = t.num := by
  obtain ⟨c, h, rfl⟩ := get_put p t n
  simp [getNum, h]

@[simp] theorem getVec_put (p : List String) (t : Text) (n : Node) : (n.put p t).getVec p = t.vec := by
  obtain ⟨c, h, rfl⟩ := get_put p t n
  simp [getVec, h]

theorem getStr_put_part {p q : List String} (t : Text) (n : Node) (h : Part p q) :
    (n.put p t).getStr q = n.getStr q := by
  simp [getStr, get_put_part t n h]

theorem getNum_put_part {p q : List String} (t : Text) (n : Node) (h : Part p q) :
    (n.put p t).getNum q = n.getNum q := by
  simp [getNum, get_put_part t n h]

theorem getVec_put_part {p q : List String} (t : Text) (n : Node) (h : Part p q) :
    (n.put p t).getVec q = n.getVec q := by
  simp [getVec, get_put_part t n h]

theorem getAttr_put_part {p q : List String} (t : Text) (n : Node) (h : Part p q) :
    (n.put p t).getAttr q = n.getAttr q := by
  simp [getAttr, get_put_part t n h]

theorem getAttr_put {p : List String} {t : Text} {a : Array3d} (n : Node) (h : t.vec = some a) :
    (n.put p t).getAttr p = .val a := by
  obtain ⟨c, hc, rfl⟩ := get_put p t n
  simp [getAttr, hc, h]

/-- What is read below a child that an edition keeps is kept. -/
theorem get_congr {n n' : Node} {k : String} (h : n'.find k = n.find k) (p : List String) :
    n'.get (k :: p) = n.get (k :: p) := by
  simp [get, h]

theorem all_setFirst_ne (k k' : String) (v : Node) (l : Nodes) (h : k' ≠ k) :
    (setFirst k v l).filter (fun c => c.1 = k') = l.filter (fun c => c.1 = k') := by
  induction l with
  | nil => simp [setFirst, Ne.symm h]
  | cons c l ih =>
    simp only [setFirst]
    split_ifs with hc
    · rw [List.filter_cons_of_neg (by simpa using Ne.symm h),
        List.filter_cons_of_neg (by simpa [hc] using Ne.symm h)]
    · simp only [List.filter_cons, ih]

theorem all_putChild_ne {k k' : String} (v n : Node) (h : k' ≠ k) :
    (n.putChild k v).all k' = n.all k' := by
  simp [all, putChild, all_setFirst_ne k k' v _ h]

theorem all_putChild (k : String) (v n : Node) : (n.putChild k v).all k = v :: (n.all k).tail := by
  simp only [all, putChild, children_mk]
  generalize n.children = l
  induction l with
  | nil => simp [setFirst]
  | cons c l ih =>
    simp only [setFirst]
    split_ifs with hc
    · simp [hc]
    · simp only [List.filter_cons, hc, decide_false, Bool.false_eq_true, if_false]
      exact ih

theorem all_erase (k : String) (n : Node) : (n.erase k).all k = [] := by
  simp [all, erase, List.filter_filter]

theorem all_erase_ne {k k' : String} (n : Node) (h : k' ≠ k) : (n.erase k).all k' = n.all k' := by
  simp only [all, erase, children_mk, List.filter_filter]
  congr 2
  funext c
  by_cases hc : c.1 = k'
  · simp [hc, h]
  · simp [hc]

theorem head_all (k : String) (n : Node) : (n.all k).head? = n.find k := by
  simp only [all, find]
  generalize n.children = l
  induction l with
  | nil => rfl
  | cons c l ih =>
    by_cases hc : c.1 = k
    · simp [hc]
    · rw [List.filter_cons_of_neg (by simpa using hc), List.find?_cons_of_neg (by simpa using hc), ih]

end Node

/-! ### Poses -/

theorem originElem_toPtree [Printer] (p : UPose) :
    (toPtree p).map Node.originElem = p.toPtree := by
  unfold toPtree UPose.toPtree
  by_cases h : isZero p.xyz ∧ isZero p.rpy
  · rw [if_pos h, if_pos h]; rfl
  · rw [if_neg h, if_neg h]
    simp only [Option.map_some, Option.some.injEq, Node.originElem]
    have h1 : Node.Part ["<xmlattr>", "xyz"] ["<xmlattr>", "rpy"] := by simp [Node.Part]
    have h2 : Node.Part ["<xmlattr>", "rpy"] ["<xmlattr>", "xyz"] := by simp [Node.Part]
    have e1 : ∀ q : List String, q ≠ [] → Node.empty.getAttr q = .absent := by
      intro q hq; simp [Node.getAttr, Node.get_empty hq]
    by_cases hx : isZero p.xyz <;> by_cases hr : isZero p.rpy
    · exact absurd ⟨hx, hr⟩ h
    · simp [hx, hr, Node.getAttr_put_part _ _ h2, e1, Node.getAttr_put _ (rfl : (Text.ofVec p.rpy).vec = _)]
    · simp [hx, hr, Node.getAttr_put_part _ _ h1, e1, Node.getAttr_put _ (rfl : (Text.ofVec p.xyz).vec = _)]
    · simp [hx, hr, Node.getAttr_put_part _ _ h2, Node.getAttr_put _ (rfl : (Text.ofVec p.xyz).vec = _),
        Node.getAttr_put _ (rfl : (Text.ofVec p.rpy).vec = _)]

@[simp] theorem originElem_empty : Node.empty.originElem = ⟨.absent, .absent⟩ := by
  simp [Node.originElem, Node.getAttr, Node.get_empty]

/-- `premul` on a document has the effect of `premul` on the origin, and nothing else. -/
theorem premul_eq [Printer] (lhs ilhs : UPose) (noprune : Bool) (n : Node) :
    (premul lhs ilhs noprune n).map Node.origin = Urdf.premul lhs ilhs noprune n.origin := by
  unfold premul Urdf.premul
  by_cases h : lhs ≠ ilhs.inverse
  · rw [if_pos h, if_pos h]; rfl
  · rw [if_neg h, if_neg h]
    cases hp : UPose.fromPtree n.origin with
    | throws => rfl
    | ub => rfl
    | ok rhs =>
      simp only [Res.bind_ok]
      by_cases hr : rhs = ilhs
      · rw [if_pos hr, if_pos hr]
        cases noprune <;> simp [Res.map, Node.origin]
      · rw [if_neg hr, if_neg hr]
        have := originElem_toPtree (lhs.mul rhs)
        cases ht : toPtree (lhs.mul rhs) with
        | none => rw [ht] at this; rw [← this]; rfl
        | some o =>
          rw [ht] at this
          rw [← this]
          simp [Res.map, Node.origin]

/-- `premul` changes only the children `origin`. -/
theorem premul_find [Printer] {lhs ilhs : UPose} {noprune : Bool} {n n' : Node}
    (h : premul lhs ilhs noprune n = .ok n') :
    n'.text = n.text ∧ n'.children.filter (fun c => c.1 ≠ "origin") =
      n.children.filter (fun c => c.1 ≠ "origin") := by
  unfold premul at h
  by_cases h1 : lhs ≠ ilhs.inverse
  · rw [if_pos h1] at h; simp at h
  rw [if_neg h1, Res.bind_eq_ok] at h
  obtain ⟨rhs, -, h⟩ := h
  by_cases h2 : rhs = ilhs
  · rw [if_pos h2] at h
    cases noprune
    · cases h
      exact ⟨rfl, by simp [Node.erase, List.filter_filter]⟩
    · cases h
      exact ⟨rfl, Node.filter_setFirst _ _ _⟩
  · rw [if_neg h2] at h
    cases ht : toPtree (lhs.mul rhs) with
    | none => rw [ht] at h; simp at h
    | some o =>
      rw [ht] at h
      cases h
      exact ⟨rfl, Node.filter_setFirst _ _ _⟩

theorem find_of_filter {n n' : Node} {k k' : String} (hk : k' ≠ k)
    (h : n'.children.filter (fun c => c.1 ≠ k) = n.children.filter (fun c => c.1 ≠ k)) :
    n'.find k' = n.find k' := by
  have e : ∀ m : Node, m.find k' =
      ((m.children.filter (fun c => c.1 ≠ k)).find? (fun c => c.1 = k')).map Prod.snd := by
    intro m
    simp only [Node.find, List.find?_filter]
    congr 2
    funext c
    by_cases hc : c.1 = k'
    · simp [hc, hk]
    · simp [hc]
  rw [e, e, h]

theorem all_of_filter {n n' : Node} {k k' : String} (hk : k' ≠ k)
    (h : n'.children.filter (fun c => c.1 ≠ k) = n.children.filter (fun c => c.1 ≠ k)) :
    n'.all k' = n.all k' := by
  have e : ∀ m : Node, m.all k' =
      ((m.children.filter (fun c => c.1 ≠ k)).filter (fun c => c.1 = k')).map Prod.snd := by
    intro m
    simp only [Node.all, List.filter_filter]
    congr 2
    funext c
    by_cases hc : c.1 = k'
    · simp [hc, hk]
    · simp [hc]
  rw [e, e, h]

end AlMath.UrdfXml
