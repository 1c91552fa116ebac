import Verif.Lemmas.UrdfXmlMass

/-!
What the editions of a document leave alone.
-/

namespace AlMath.UrdfXml

open AlMath.Urdf AlMath.Spec AlMath.Spec.UrdfXml

/-! ### `SameBut` -/

theorem _root_.AlMath.Spec.UrdfXml.SameBut.refl (keys : List String) (n : Node) : SameBut keys n n := ⟨rfl, rfl⟩

theorem _root_.AlMath.Spec.UrdfXml.SameBut.trans {keys : List String} {a b c : Node} (h : SameBut keys a b)
    (h' : SameBut keys b c) : SameBut keys a c := ⟨h'.1.trans h.1, h'.2.trans h.2⟩

theorem _root_.AlMath.Spec.UrdfXml.SameBut.mono {keys keys' : List String} (hk : ∀ k ∈ keys, k ∈ keys') {n n' : Node}
    (h : SameBut keys n n') : SameBut keys' n n' := by
  refine ⟨h.1, ?_⟩
  have e : ∀ l : Nodes, l.filter (fun c => decide (c.1 ∉ keys')) =
      (l.filter fun c => decide (c.1 ∉ keys)).filter fun c => decide (c.1 ∉ keys') := by
    intro l
    rw [List.filter_filter]
    refine List.filter_congr fun c _ => ?_
    by_cases h1 : c.1 ∈ keys'
    · simp [h1]
    · have : c.1 ∉ keys := fun h => h1 (hk _ h)
      simp [h1, this]
  rw [e n'.children, e n.children, h.2]

theorem _root_.AlMath.Spec.UrdfXml.SameBut.find {keys : List String} {n n' : Node} (h : SameBut keys n n') {k : String}
    (hk : k ∉ keys) : n'.find k = n.find k := by
  have e : ∀ m : Node, m.find k =
      ((m.children.filter fun c => decide (c.1 ∉ keys)).find? fun c => decide (c.1 = k)).map Prod.snd := by
    intro m
    simp only [Node.find, List.find?_filter]
    congr 2
    funext c
    by_cases h1 : c.1 = k
    · subst h1; simp [hk]
    · simp [h1]
  rw [e, e, h.2]

theorem _root_.AlMath.Spec.UrdfXml.SameBut.name {keys : List String} {n n' : Node} (h : SameBut keys n n')
    (hk : "<xmlattr>" ∉ keys) : n'.name = n.name := by
  simp only [Node.name, Node.getStr, Node.get_congr (h.find hk)]

theorem _root_.AlMath.Spec.UrdfXml.SameBut.parentLink {keys : List String} {n n' : Node} (h : SameBut keys n n')
    (hk : "parent" ∉ keys) : n'.parentLink = n.parentLink := by
  simp only [Node.parentLink, Node.getStr, Node.get_congr (h.find hk)]

theorem _root_.AlMath.Spec.UrdfXml.SameBut.childLink {keys : List String} {n n' : Node} (h : SameBut keys n n')
    (hk : "child" ∉ keys) : n'.childLink = n.childLink := by
  simp only [Node.childLink, Node.getStr, Node.get_congr (h.find hk)]

theorem _root_.AlMath.Spec.UrdfXml.SameBut.mimic {keys : List String} {n n' : Node} (h : SameBut keys n n')
    (hk : "mimic" ∉ keys) : n'.mimic = n.mimic := by
  simp only [Node.mimic, h.find hk]

theorem sameBut_putChild (n : Node) (k : String) (v : Node) : SameBut [k] n (n.putChild k v) := by
  refine ⟨rfl, ?_⟩
  simp only [Node.putChild, Node.children_mk, List.mem_singleton]
  exact Node.filter_setFirst k v n.children

theorem sameBut_put (n : Node) (k : String) (p : List String) (t : Text) :
    SameBut [k] n (n.put (k :: p) t) := sameBut_putChild _ _ _

theorem sameBut_erase (n : Node) (k : String) : SameBut [k] n (n.erase k) := by
  refine ⟨rfl, ?_⟩
  simp [Node.erase, List.filter_filter]

/-! ### `Edited` -/

theorem _root_.AlMath.Spec.UrdfXml.Edited.refl (P : String × Node → Node → Prop) (doc : Nodes) : Edited P doc doc :=
  List.forall₂_same.2 fun _ _ => ⟨rfl, Or.inl rfl⟩

theorem _root_.AlMath.Spec.UrdfXml.Edited.mono {P Q : String × Node → Node → Prop} {doc doc' : Nodes} (h : Edited P doc doc')
    (hPQ : ∀ c n, P c n → Q c n) : Edited Q doc doc' :=
  h.imp fun _ _ hc => ⟨hc.1, hc.2.imp id (hPQ _ _)⟩

theorem _root_.AlMath.Spec.UrdfXml.Edited.trans {P Q : String × Node → Node → Prop} {doc doc' doc'' : Nodes}
    (h : Edited P doc doc') (h' : Edited P doc' doc'') (hQ : ∀ c n, P c n → Q c n)
    (hP : ∀ c n m, P c n → P (c.1, n) m → Q c m) : Edited Q doc doc'' := by
  induction h generalizing doc'' with
  | nil => cases h'; exact List.Forall₂.nil
  | @cons c c' l l' h1 h2 ih =>
    cases h' with
    | @cons _ c'' _ l'' h3 h4 =>
      refine List.Forall₂.cons ⟨h3.1.trans h1.1, ?_⟩ (ih h4)
      have hc' : c' = (c.1, c'.2) := by rw [← h1.1]
      rcases h1.2 with e1 | e1 <;> rcases h3.2 with e2 | e2
      · left; rw [e2, e1]
      · right
        have : c' = c := by rw [hc', e1]
        rw [this] at e2
        exact hQ _ _ e2
      · right; rw [e2]; exact hQ _ _ e1
      · right
        rw [hc'] at e2
        exact hP _ _ _ e1 e2

theorem edited_setEl {P : String × Node → Node → Prop} {key name : String} {doc : Nodes} {n' : Node}
    (h : ∀ n, findEl key name doc = some n → P (key, n) n') : Edited P doc (setEl key name n' doc) := by
  induction doc with
  | nil => exact List.Forall₂.nil
  | cons c doc ih =>
    simp only [setEl]
    split_ifs with hc
    · refine List.Forall₂.cons ⟨rfl, Or.inr ?_⟩ (Edited.refl P doc)
      have := h c.2 (by simp [findEl, hc])
      rw [← hc.1] at this
      exact this
    · refine List.Forall₂.cons ⟨rfl, Or.inl rfl⟩ (ih ?_)
      intro n hn
      refine h n ?_
      rw [← hn]
      unfold findEl
      rw [List.find?_cons_of_neg (by simpa using hc)]

/-- The elements with a given name are edited in turn. -/
theorem editEls_edited {key : String} {f : String → Node → Res Node} {Q : Node → Node → Prop}
    (hQ : ∀ a b c, Q a b → Q b c → Q a c) (hn : ∀ a b, Q a b → b.name = a.name)
    (hf : ∀ nm n n', f nm n = .ok n' → Q n n') (I : Node → Prop) (hI : ∀ a b, Q a b → (I b ↔ I a))
    (names : List String) (doc : Nodes) (h : ∀ nm ∈ names, ∀ n, findEl key nm doc = some n → I n) :
    Edited (fun c n => c.1 = key ∧ I c.2 ∧ Q c.2 n) doc (editEls key f names doc).2 := by
  induction names generalizing doc with
  | nil => exact Edited.refl _ _
  | cons nm rest ih =>
    simp only [editEls]
    cases he : findEl key nm doc with
    | none => exact Edited.refl _ _
    | some n =>
      dsimp only
      cases hfn : f nm n with
      | throws => exact Edited.refl _ _
      | ub => exact Edited.refl _ _
      | ok n' =>
        dsimp only
        have hq := hf _ _ _ hfn
        have hnm : n.name = some nm := (mem_findEl he).2
        have hnm' : n'.name = some nm := by rw [hn _ _ hq, hnm]
        refine Edited.trans (P := fun c n => c.1 = key ∧ I c.2 ∧ Q c.2 n)
          (edited_setEl ?_) (ih _ ?_) (fun _ _ h => h) ?_
        · intro m hm
          rw [he] at hm
          cases hm
          exact ⟨rfl, h nm (by simp) n he, hq⟩
        · intro nm2 h2 m hm
          by_cases e : nm2 = nm
          · subst e
            rw [findEl_setEl _ _ _ _ hnm' (by rw [he]; simp)] at hm
            cases hm
            exact (hI _ _ hq).2 (h nm2 (by simp) n he)
          · rw [findEl_setEl_ne _ _ _ _ _ _ hnm' (Or.inr e)] at hm
            exact h nm2 (by simp [h2]) m hm
        · rintro c a b ⟨h1, h2, h3⟩ ⟨-, -, h5⟩
          exact ⟨h1, h2, hQ _ _ _ h3 h5⟩

theorem premul_sameBut [Printer] {lhs ilhs : UPose} {noprune : Bool} {n n' : Node}
    (h : premul lhs ilhs noprune n = .ok n') : SameBut ["origin"] n n' := by
  obtain ⟨h1, h2⟩ := premul_find h
  refine ⟨h1, ?_⟩
  simpa using h2

theorem editAll_edited {key : String} {f : Node → Res Node} {Q : Node → Node → Prop}
    (hf : ∀ n n', f n = .ok n' → Q n n') (ch : Nodes) :
    Edited (fun c n => c.1 = key ∧ Q c.2 n) ch (editAll key f ch).2 := by
  unfold editAll
  induction ch with
  | nil => exact List.Forall₂.nil
  | cons c ch ih =>
    simp only [mapUpTo]
    by_cases hk : c.1 = key
    · rw [if_pos hk]
      cases hfc : f c.2 with
      | throws => exact Edited.refl _ _
      | ub => exact Edited.refl _ _
      | ok n' => exact List.Forall₂.cons ⟨rfl, Or.inr ⟨hk, hf _ _ hfc⟩⟩ ih
    · rw [if_neg hk]
      exact List.Forall₂.cons ⟨rfl, Or.inl rfl⟩ ih

theorem editKeys_edited {f : Node → Res Node} {Q : Node → Node → Prop}
    (hf : ∀ n n', f n = .ok n' → Q n n') (hQ : ∀ a b c, Q a b → Q b c → Q a c) (keys : List String)
    (ch : Nodes) : Edited (fun c n => c.1 ∈ keys ∧ Q c.2 n) ch (editKeys f keys ch).2 := by
  induction keys generalizing ch with
  | nil => exact Edited.refl _ _
  | cons key rest ih =>
    have h1 := editAll_edited (key := key) hf ch
    simp only [editKeys]
    rcases he : editAll key f ch with ⟨r, c'⟩
    rw [he] at h1
    have h1' : Edited (fun c n => c.1 ∈ key :: rest ∧ Q c.2 n) ch c' :=
      h1.mono fun c n ⟨a, b⟩ => ⟨by simp [a], b⟩
    cases r with
    | throws => exact h1'
    | ub => exact h1'
    | ok u =>
      have h2' : Edited (fun c n => c.1 ∈ key :: rest ∧ Q c.2 n) c' (editKeys f rest c').2 :=
        (ih c').mono fun c n ⟨a, b⟩ => ⟨by simp [a], b⟩
      exact h1'.trans h2' (fun _ _ h => h) fun c n m ⟨a, b⟩ ⟨_, d⟩ => ⟨a, hQ _ _ _ b d⟩

theorem transportLink_moved [Printer] (pose : UPose) (n : Node) : FrameMoved n (transportLink pose n).2 := by
  unfold transportLink
  refine ⟨rfl, ?_⟩
  exact editKeys_edited (Q := SameBut ["origin"]) (fun _ _ h => premul_sameBut h)
    (fun _ _ _ h h' => h.trans h') _ _

theorem _root_.AlMath.Spec.UrdfXml.Edited.find {P : String × Node → Node → Prop} {l l' : Nodes} (h : Edited P l l') {k : String}
    (hk : ∀ c n, P c n → c.1 ≠ k) : (l'.find? fun c => c.1 = k) = l.find? fun c => c.1 = k := by
  induction h with
  | nil => rfl
  | @cons c c' l l' h1 h2 ih =>
    by_cases e : c.1 = k
    · have e' : c'.1 = k := h1.1.trans e
      rw [List.find?_cons_of_pos (l := l) (a := c) (by simpa using e),
        List.find?_cons_of_pos (l := l') (a := c') (by simpa using e')]
      rcases h1.2 with h3 | h3
      · rw [show c' = c from Prod.ext h1.1 h3]
      · exact absurd e (hk _ _ h3)
    · have e' : ¬ c'.1 = k := fun h => e (h1.1.symm.trans h)
      rw [List.find?_cons_of_neg (l := l) (a := c) (by simpa using e),
        List.find?_cons_of_neg (l := l') (a := c') (by simpa using e'), ih]

theorem _root_.AlMath.Spec.UrdfXml.FrameMoved.name {n n' : Node} (h : FrameMoved n n') : n'.name = n.name := by
  have : n'.find "<xmlattr>" = n.find "<xmlattr>" := by
    unfold Node.find
    rw [h.2.find]
    rintro c m ⟨h1, -⟩ e
    rw [e] at h1
    simp at h1
  simp only [Node.name, Node.getStr, Node.get_congr this]

theorem _root_.AlMath.Spec.UrdfXml.FrameMoved.trans {a b c : Node} (h : FrameMoved a b) (h' : FrameMoved b c) : FrameMoved a c :=
  ⟨h'.1.trans h.1, h.2.trans h'.2 (fun _ _ h => h) fun _ _ _ ⟨h1, h2⟩ ⟨_, h4⟩ => ⟨h1, h2.trans h4⟩⟩

/-! ### Change of root link -/

theorem _root_.AlMath.Spec.UrdfXml.RerootEdit.mono {A A' B B' : Set String} (hA : A ⊆ A') (hB : B ⊆ B') {c : String × Node} {n : Node}
    (h : RerootEdit A B c n) : RerootEdit A' B' c n := by
  rcases h with ⟨h1, ⟨a, ha, h2⟩, h3⟩ | ⟨h1, ⟨b, hb, h2⟩, h3⟩ | ⟨h1, ⟨b, hb, h2⟩, h3⟩
  · exact Or.inl ⟨h1, ⟨a, hA ha, h2⟩, h3⟩
  · exact Or.inr (Or.inl ⟨h1, ⟨b, hB hb, h2⟩, h3⟩)
  · exact Or.inr (Or.inr ⟨h1, ⟨b, hB hb, h2⟩, h3⟩)

theorem _root_.AlMath.Spec.UrdfXml.RerootEdit.trans {A B : Set String} {c : String × Node} {n m : Node} (h : RerootEdit A B c n)
    (h' : RerootEdit A B (c.1, n) m) : RerootEdit A B c m := by
  have hm : ∀ {a b : Node}, SameBut ["origin"] a b → SameBut ["origin", "parent", "child", "axis"] a b :=
    fun h => h.mono (by simp)
  rcases h with ⟨h1, ⟨a, ha, h2⟩, h3⟩ | ⟨h1, ⟨b, hb, h2⟩, h3⟩ | ⟨h1, ⟨b, hb, h2⟩, h3⟩
  · rcases h' with ⟨-, -, k3⟩ | ⟨-, -, k3⟩ | ⟨k1, -⟩
    · exact Or.inl ⟨h1, ⟨a, ha, h2⟩, h3.trans k3⟩
    · exact Or.inl ⟨h1, ⟨a, ha, h2⟩, h3.trans (hm k3)⟩
    · rw [h1] at k1; simp at k1
  · rcases h' with ⟨-, ⟨a, ha, k2⟩, k3⟩ | ⟨-, -, k3⟩ | ⟨k1, -⟩
    · exact Or.inl ⟨h1, ⟨a, ha, by rw [← h3.name (by simp)]; exact k2⟩, (hm h3).trans k3⟩
    · exact Or.inr (Or.inl ⟨h1, ⟨b, hb, h2⟩, h3.trans k3⟩)
    · rw [h1] at k1; simp at k1
  · rcases h' with ⟨k1, -⟩ | ⟨k1, -⟩ | ⟨-, -, k3⟩
    · rw [h1] at k1; simp at k1
    · rw [h1] at k1; simp at k1
    · exact Or.inr (Or.inr ⟨h1, ⟨b, hb, h2⟩, h3.trans k3⟩)

theorem transport_edited [Printer] (x : XTree) (pose : UPose) (noprune : String → Bool) :
    Edited (RerootEdit ∅ {x.root}) x.doc (x.transportRootLinkFrame pose noprune).2.doc := by
  unfold XTree.transportRootLinkFrame
  have h1 := editEls_edited (key := "joint") (f := fun j => premul pose.inverse pose (noprune j))
    (Q := SameBut ["origin"]) (fun _ _ _ h h' => h.trans h') (fun _ _ h => h.name (by simp))
    (fun _ _ _ h => premul_sameBut h) (I := fun n => n.parentLink = some x.root)
    (fun _ _ h => by rw [h.parentLink (by simp)]) (x.childJoints x.root) x.doc (by
      intro nm hnm n hn
      unfold XTree.childJoints at hnm
      have h2 := (List.mem_filter.1 hnm).2
      simp only [decide_eq_true_eq] at h2
      unfold XTree.joint at h2
      rw [if_pos (List.mem_filter.1 hnm).1, hn, Option.bind_some] at h2
      exact h2)
  rcases he : editEls "joint" (fun j => premul pose.inverse pose (noprune j)) (x.childJoints x.root)
    x.doc with ⟨r, doc⟩
  rw [he] at h1
  have h1' : Edited (RerootEdit ∅ {x.root}) x.doc doc :=
    h1.mono fun c n ⟨a, b, d⟩ => Or.inr (Or.inl ⟨a, ⟨_, rfl, b⟩, d⟩)
  cases r with
  | throws => exact h1'
  | ub => exact h1'
  | ok u =>
    dsimp only
    cases hl : findEl "link" x.root doc with
    | none => exact h1'
    | some l =>
      dsimp only
      refine h1'.trans (edited_setEl ?_) (fun _ _ h => h) (fun _ _ _ h h' => h.trans h')
      intro n hn
      rw [hl] at hn
      cases hn
      exact Or.inr (Or.inr ⟨rfl, ⟨_, rfl, (mem_findEl hl).2⟩, transportLink_moved pose l⟩)

theorem transport_index [Printer] (x : XTree) (pose : UPose) (noprune : String → Bool) :
    (x.transportRootLinkFrame pose noprune).2.joints = x.joints ∧
    (x.transportRootLinkFrame pose noprune).2.root = x.root := by
  unfold XTree.transportRootLinkFrame
  rcases editEls "joint" (fun j => premul pose.inverse pose (noprune j)) (x.childJoints x.root)
    x.doc with ⟨r, doc⟩
  cases r with
  | throws => exact ⟨rfl, rfl⟩
  | ub => exact ⟨rfl, rfl⟩
  | ok u =>
    dsimp only
    cases hl : findEl "link" x.root doc with
    | none => exact ⟨rfl, rfl⟩
    | some l => exact ⟨rfl, rfl⟩

theorem transportTo_edited [Printer] (x : XTree) (name : String) (n : Node) (b : Bool) :
    Edited (RerootEdit ∅ {x.root}) x.doc (x.transportToJoint name n b).2.doc ∧
    (x.transportToJoint name n b).2.joints = x.joints := by
  unfold XTree.transportToJoint
  cases n.origin with
  | none => exact ⟨Edited.refl _ _, rfl⟩
  | some e =>
    dsimp only
    cases UPose.fromElem e with
    | throws => exact ⟨Edited.refl _ _, rfl⟩
    | ub => exact ⟨Edited.refl _ _, rfl⟩
    | ok pose => exact ⟨transport_edited _ _ _, (transport_index _ _ _).1⟩

theorem flipLinks_sameBut {n n' : Node} (h : flipLinks n = some n') :
    SameBut ["parent", "child"] n n' := by
  unfold flipLinks at h
  cases hp : n.parentLink with
  | none => rw [hp] at h; simp at h
  | some p =>
    cases hc : n.childLink with
    | none => rw [hp, hc] at h; simp at h
    | some c =>
      rw [hp, hc] at h
      cases h
      exact ((sameBut_put n _ _ _).mono (by simp)).trans ((sameBut_put _ _ _ _).mono (by simp))

theorem flipAxis_sameBut [Printer] {n n' : Node} (h : flipAxis n = .ok n') : SameBut ["axis"] n n' := by
  have key : ∀ n' : Node, (let old : Array3d := n.axis.getD ![1, 0, 0]
      let new : Array3d := ![-old 0, -old 1, -old 2]
      if new 0 = 1 ∧ new 1 = 0 ∧ new 2 = 0 then Res.ok (n.erase "axis")
      else .ok (n.put ["axis", "<xmlattr>", "xyz"] (.ofVec new))) = .ok n' → SameBut ["axis"] n n' := by
    intro n' h
    dsimp only at h
    split_ifs at h <;> cases h
    · exact sameBut_erase _ _
    · exact sameBut_put _ _ _ _
  unfold flipAxis at h
  cases ht : n.type with
  | none => rw [ht] at h; cases h
  | some ty =>
    rw [ht] at h
    cases ty with
    | fixed => cases h; exact SameBut.refl _ _
    | floating => cases h; exact SameBut.refl _ _
    | revolute => exact key _ h
    | continuous => exact key _ h
    | prismatic => exact key _ h
    | planar => exact key _ h

theorem flipIn_edited [Printer] (x : XTree) (name : String) :
    Edited (RerootEdit {name} ∅) x.doc (x.flipInIndex name).2.doc := by
  have hm : ∀ {a b : Node}, SameBut ["parent", "child"] a b →
      SameBut ["origin", "parent", "child", "axis"] a b := fun h => h.mono (by simp)
  have hm' : ∀ {a b : Node}, SameBut ["axis"] a b →
      SameBut ["origin", "parent", "child", "axis"] a b := fun h => h.mono (by simp)
  unfold XTree.flipInIndex
  rcases hspan : x.joints.span (fun j => j ≠ name) with ⟨pre, post⟩
  cases hb : (x.joint name).bind fun n => (flipLinks n).map (n, ·) with
  | none => cases post <;> exact Edited.refl _ _
  | some p =>
    obtain ⟨n, n1⟩ := p
    obtain ⟨m, hm1, hm2⟩ := Option.bind_eq_some_iff.1 hb
    obtain ⟨m1, hm3, hm4⟩ := Option.map_eq_some_iff.1 hm2
    cases hm4
    have hfind : findEl "joint" name x.doc = some n := by
      unfold XTree.joint at hm1
      split_ifs at hm1
      exact hm1
    have hname := (mem_findEl hfind).2
    have h1 := flipLinks_sameBut hm3
    have hn1 : n1.name = some name := by rw [h1.name (by simp), hname]
    have e1 : Edited (RerootEdit {name} ∅) x.doc (setEl "joint" name n1 x.doc) := by
      refine edited_setEl fun k hk => ?_
      rw [hfind] at hk
      cases hk
      exact Or.inl ⟨rfl, ⟨_, rfl, hname⟩, hm h1⟩
    cases post with
    | nil => exact Edited.refl _ _
    | cons q post =>
      dsimp only
      split_ifs
      · exact Edited.refl _ _
      · cases hf : flipAxis n1 with
        | throws => exact e1
        | ub => exact Edited.refl _ _
        | ok n2 =>
          refine e1.trans (edited_setEl ?_) (fun _ _ h => h) (fun _ _ _ h h' => h.trans h')
          intro k hk
          rw [findEl_setEl _ _ _ _ hn1 (by rw [hfind]; simp)] at hk
          cases hk
          exact Or.inl ⟨rfl, ⟨_, rfl, hn1⟩, hm' (flipAxis_sameBut hf)⟩

theorem flipRoot_edited [Printer] (x : XTree) (name : String) (b : Bool) :
    Edited (RerootEdit {name} {x.root}) x.doc (x.flipRootLinkJoint name b).2.doc ∧
    ((x.flipRootLinkJoint name b).2.doc = x.doc ∨
      (x.joint name).bind Node.parentLink = some x.root) := by
  unfold XTree.flipRootLinkJoint
  cases hj : x.joint name with
  | none => exact ⟨Edited.refl _ _, Or.inl rfl⟩
  | some n =>
    dsimp only
    by_cases hp : n.parentLink ≠ some x.root
    · rw [if_pos hp]; exact ⟨Edited.refl _ _, Or.inl rfl⟩
    · rw [if_neg hp]
      have h1 := (transportTo_edited x name n b).1
      have h1' : Edited (RerootEdit {name} {x.root}) x.doc (x.transportToJoint name n b).2.doc :=
        h1.mono fun _ _ h => h.mono (by simp) (by simp)
      refine ⟨?_, Or.inr (by simpa using hp)⟩
      rcases ht : x.transportToJoint name n b with ⟨r, x1⟩
      rw [ht] at h1'
      cases r with
      | throws => exact h1'
      | ub => exact h1'
      | ok u =>
        exact h1'.trans ((flipIn_edited x1 name).mono fun _ _ h => h.mono (by simp) (by simp))
          (fun _ _ h => h) fun _ _ _ h h' => h.trans h'

/-- The first element with a name in an edited document. -/
theorem _root_.AlMath.Spec.UrdfXml.Edited.findEl {P : String × Node → Node → Prop} {l l' : Nodes} (h : Edited P l l')
    (hn : ∀ c n, P c n → n.name = c.2.name) (key name : String) :
    (findEl key name l' = none ∧ findEl key name l = none) ∨
    ∃ n n', findEl key name l = some n ∧ findEl key name l' = some n' ∧ (n' = n ∨ P (key, n) n') := by
  induction h with
  | nil => left; exact ⟨rfl, rfl⟩
  | @cons c c' l l' h1 h2 ih =>
    have hcn : c'.2.name = c.2.name := by
      rcases h1.2 with e | e
      · rw [e]
      · exact hn _ _ e
    unfold UrdfXml.findEl at ih ⊢
    by_cases e : c.1 = key ∧ c.2.name = some name
    · have e' : c'.1 = key ∧ c'.2.name = some name := ⟨h1.1.trans e.1, hcn.trans e.2⟩
      rw [List.find?_cons_of_pos (l := l) (a := c) (by simpa using e),
        List.find?_cons_of_pos (l := l') (a := c') (by simpa using e')]
      right
      refine ⟨c.2, c'.2, rfl, rfl, ?_⟩
      rw [← e.1]
      exact h1.2
    · have e' : ¬ (c'.1 = key ∧ c'.2.name = some name) := by
        rw [h1.1, hcn]; exact e
      rw [List.find?_cons_of_neg (l := l) (a := c) (by simpa using e),
        List.find?_cons_of_neg (l := l') (a := c') (by simpa using e')]
      exact ih

theorem _root_.AlMath.Spec.UrdfXml.RerootEdit.name {A B : Set String} {c : String × Node} {n : Node} (h : RerootEdit A B c n) :
    n.name = c.2.name := by
  rcases h with ⟨-, -, h⟩ | ⟨-, -, h⟩ | ⟨-, -, h⟩
  · exact h.name (by simp)
  · exact h.name (by simp)
  · exact h.name

/-- The parents of the joints with the given names. Helper of the proofs. Not in /repo:
specification. -/
def parentsOf (doc : Nodes) (names : List String) : Set String :=
  {b | ∃ nm ∈ names, (findEl "joint" nm doc).bind Node.parentLink = some b}

theorem flipAll_edited [Printer] (names : List String) (hnd : names.Nodup) (x : XTree) :
    Edited (RerootEdit {nm | nm ∈ names} (parentsOf x.doc names)) x.doc
      (XTree.flipAll names x).2.doc := by
  induction names generalizing x with
  | nil => exact Edited.refl _ _
  | cons name rest ih =>
    rw [List.nodup_cons] at hnd
    unfold XTree.flipAll
    obtain ⟨h1, h2⟩ := flipRoot_edited x name (rest ≠ [] : Bool)
    rcases ht : x.flipRootLinkJoint name (rest ≠ [] : Bool) with ⟨r, x1⟩
    rw [ht] at h1 h2
    dsimp only at h1 h2
    have h1' : Edited (RerootEdit {nm | nm ∈ name :: rest} (parentsOf x.doc (name :: rest))) x.doc x1.doc := by
      rcases h2 with h2 | h2
      · rw [h2]; exact Edited.refl _ _
      · refine h1.mono fun _ _ h => h.mono (by simp) ?_
        intro b hb
        rw [Set.mem_singleton_iff] at hb
        subst hb
        refine ⟨name, by simp, ?_⟩
        unfold XTree.joint at h2
        split_ifs at h2
        · exact h2
        · simp at h2
    cases r with
    | throws => exact h1'
    | ub => exact h1'
    | ok u =>
      refine h1'.trans ((ih hnd.2 x1).mono fun _ _ h => h.mono ?_ ?_) (fun _ _ h => h)
        fun _ _ _ h h' => h.trans h'
      · intro nm h; exact List.mem_cons_of_mem _ h
      · rintro b ⟨nm, hnm, hb⟩
        refine ⟨nm, List.mem_cons_of_mem _ hnm, ?_⟩
        rcases h1.findEl (fun c n h => h.name) "joint" nm with ⟨e1, -⟩ | ⟨n, n', e1, e2, e3⟩
        · rw [e1] at hb; simp at hb
        · rw [e2, Option.bind_some] at hb
          rw [e1, Option.bind_some, ← hb]
          rcases e3 with rfl | e3
          · rfl
          · rcases e3 with ⟨-, ⟨a, ha, e4⟩, -⟩ | ⟨-, -, e4⟩ | ⟨e4, -⟩
            · rw [Set.mem_singleton_iff] at ha
              subst ha
              have h5 := (mem_findEl e1).2
              dsimp only at e4
              rw [h5] at e4
              exact absurd (Option.some.inj e4 ▸ hnm) hnd.1
            · exact (e4.parentLink (by simp)).symm
            · simp at e4

/-! ### The path to the root has no repetition -/

theorem pathToRoot_fuel (x : XTree) : ∀ (n m : ℕ) (cur : String) (l l' : List String),
    x.pathToRoot n cur = some (.ok l) → x.pathToRoot m cur = some (.ok l') → l = l' := by
  intro n
  induction n with
  | zero => intro m cur l l' h; simp [XTree.pathToRoot] at h
  | succ n ih =>
    intro m cur l l' h h'
    cases m with
    | zero => simp [XTree.pathToRoot] at h'
    | succ m =>
      unfold XTree.pathToRoot at h h'
      by_cases hr : cur = x.root
      · rw [if_pos hr] at h h'
        cases h; cases h'; rfl
      · rw [if_neg hr] at h h'
        cases hf : x.joints.find? (fun j => (x.joint j).bind Node.childLink = some cur) with
        | none => rw [hf] at h; simp at h
        | some j =>
          rw [hf] at h h'
          dsimp only at h h'
          cases ht : (x.joint j).bind Node.type with
          | none => rw [ht] at h; simp at h
          | some ty =>
            rw [ht] at h h'
            have key : (match (x.joint j).bind Node.parentLink with
                | none => some .throws
                | some p => (x.pathToRoot n p).map fun r => r.map fun l => j :: l) = some (Res.ok l) →
                (match (x.joint j).bind Node.parentLink with
                | none => some .throws
                | some p => (x.pathToRoot m p).map fun r => r.map fun l => j :: l) = some (Res.ok l') →
                l = l' := by
              intro h h'
              cases hp : (x.joint j).bind Node.parentLink with
              | none => rw [hp] at h; simp at h
              | some p =>
                rw [hp] at h h'
                dsimp only at h h'
                obtain ⟨r, hr1, hr2⟩ := Option.map_eq_some_iff.1 h
                obtain ⟨r', hr1', hr2'⟩ := Option.map_eq_some_iff.1 h'
                obtain ⟨k, rfl, rfl⟩ := Res.map_eq_ok.1 hr2
                obtain ⟨k', rfl, rfl⟩ := Res.map_eq_ok.1 hr2'
                rw [ih m p k k' hr1 hr1']
            cases ty with
            | floating => simp at h
            | planar => simp at h
            | fixed => exact key h h'
            | revolute => exact key h h'
            | continuous => exact key h h'
            | prismatic => exact key h h'

/-- A path goes on with the path of the parent of its first joint, which leads to the link. -/
theorem pathToRoot_cons {x : XTree} {n : ℕ} {cur j : String} {l : List String}
    (h : x.pathToRoot n cur = some (.ok (j :: l))) :
    (x.joint j).bind Node.childLink = some cur ∧
    ∃ m p, (x.joint j).bind Node.parentLink = some p ∧ x.pathToRoot m p = some (.ok l) := by
  cases n with
  | zero => simp [XTree.pathToRoot] at h
  | succ n =>
    unfold XTree.pathToRoot at h
    by_cases hr : cur = x.root
    · rw [if_pos hr] at h; simp at h
    · rw [if_neg hr] at h
      cases hf : x.joints.find? (fun j => (x.joint j).bind Node.childLink = some cur) with
      | none => rw [hf] at h; simp at h
      | some j' =>
        rw [hf] at h
        dsimp only at h
        have hc : (x.joint j').bind Node.childLink = some cur := by simpa using List.find?_some hf
        have key : (match (x.joint j').bind Node.parentLink with
            | none => some .throws
            | some p => (x.pathToRoot n p).map fun r => r.map fun l => j' :: l) = some (Res.ok (j :: l)) →
            (x.joint j).bind Node.childLink = some cur ∧
            ∃ m p, (x.joint j).bind Node.parentLink = some p ∧ x.pathToRoot m p = some (.ok l) := by
          intro h
          cases hp : (x.joint j').bind Node.parentLink with
          | none => rw [hp] at h; simp at h
          | some p =>
            rw [hp] at h
            dsimp only at h
            obtain ⟨r, hr1, hr2⟩ := Option.map_eq_some_iff.1 h
            obtain ⟨k, rfl, e⟩ := Res.map_eq_ok.1 hr2
            obtain ⟨rfl, rfl⟩ := List.cons.inj e
            exact ⟨hc, n, p, hp, hr1⟩
        cases ht : (x.joint j').bind Node.type with
        | none => rw [ht] at h; simp at h
        | some ty =>
          rw [ht] at h
          cases ty with
          | floating => simp at h
          | planar => simp at h
          | fixed => exact key h
          | revolute => exact key h
          | continuous => exact key h
          | prismatic => exact key h

theorem pathToRoot_suffix {x : XTree} {n : ℕ} {cur : String} (l1 : List String) {j : String}
    {l2 : List String} (h : x.pathToRoot n cur = some (.ok (l1 ++ j :: l2))) :
    ∃ m c, (x.joint j).bind Node.childLink = some c ∧ x.pathToRoot m c = some (.ok (j :: l2)) := by
  induction l1 generalizing n cur with
  | nil => exact ⟨n, cur, (pathToRoot_cons h).1, h⟩
  | cons a l1 ih =>
    obtain ⟨-, m, p, -, h2⟩ := pathToRoot_cons h
    exact ih h2

theorem pathToRoot_nodup {x : XTree} {n : ℕ} {cur : String} {l : List String}
    (h : x.pathToRoot n cur = some (.ok l)) : l.Nodup := by
  induction l generalizing n cur with
  | nil => exact List.nodup_nil
  | cons j l ih =>
    obtain ⟨h1, m, p, -, h2⟩ := pathToRoot_cons h
    refine List.nodup_cons.2 ⟨?_, ih h2⟩
    intro hj
    obtain ⟨l1, l2, rfl⟩ := List.append_of_mem hj
    obtain ⟨m', c, e1, e2⟩ := pathToRoot_suffix l1 h2
    rw [h1] at e1
    cases e1
    have := pathToRoot_fuel x _ _ _ _ _ h e2
    have := congrArg List.length this
    simp at this
    omega

/-! ### Removals -/

theorem eraseEl_filter {doc : Nodes} (h : Indexable doc) {key name : String}
    (hk : key = "joint" ∨ key = "link") :
    eraseEl key name doc = doc.filter fun c => ¬ (c.1 = key ∧ c.2.name = some name) := by
  induction doc with
  | nil => rfl
  | cons c doc ih =>
    have hdoc : Indexable doc := by
      refine ⟨fun d hd => h.complete d (by simp [hd]), ?_, ?_⟩
      · have := h.links_nodup
        rw [linksOf_cons, List.map_append] at this
        exact (List.nodup_append.1 this).2.1
      · have := h.joints_nodup
        rw [jointsOf_cons, List.map_append] at this
        exact (List.nodup_append.1 this).2.1
    simp only [eraseEl]
    by_cases hc : c.1 = key ∧ c.2.name = some name
    · rw [if_pos hc, List.filter_cons_of_neg (by simpa using hc)]
      symm
      rw [List.filter_eq_self]
      intro d hd
      simp only [decide_eq_true_eq]
      rintro ⟨d1, d2⟩
      have hd' := hdoc.complete d hd
      have hc' := h.complete c (by simp)
      rcases hk with rfl | rfl
      · have hj := h.joints_nodup
        rw [jointsOf_cons, List.map_append] at hj
        rcases read_cases c hc' with ⟨e, -⟩ | ⟨-, j, j1, -, j2⟩ | ⟨-, e, -⟩
        · rw [hc.1] at e; simp at e
        · rcases read_cases d hd' with ⟨e, -⟩ | ⟨-, k, k1, -, k2⟩ | ⟨-, e, -⟩
          · rw [d1] at e; simp at e
          · have hk : k ∈ jointsOf doc := by
              obtain ⟨a, b, rfl⟩ := List.append_of_mem hd
              have : ∀ l m : Nodes, jointsOf (l ++ m) = jointsOf l ++ jointsOf m := by
                intro l m
                simp [jointsOf, docJoints]
              rw [this, jointsOf_cons, k2]
              simp
            have e : j.name = k.name := by
              have := j1.name.symm.trans (hc.2.trans (d2.symm.trans k1.name))
              exact Option.some.inj this
            rw [j2] at hj
            refine (List.nodup_append.1 hj).2.2 j.name (by simp) k.name ?_ e
            exact List.mem_map_of_mem hk
          · exact e d1
        · exact e hc.1
      · have hj := h.links_nodup
        rw [linksOf_cons, List.map_append] at hj
        rcases read_cases c hc' with ⟨-, j, j1, j2, -⟩ | ⟨e, -⟩ | ⟨e, -⟩
        · rcases read_cases d hd' with ⟨-, k, k1, k2, -⟩ | ⟨e, -⟩ | ⟨e, -⟩
          · have hk : k ∈ linksOf doc := by
              obtain ⟨a, b, rfl⟩ := List.append_of_mem hd
              have : ∀ l m : Nodes, linksOf (l ++ m) = linksOf l ++ linksOf m := by
                intro l m
                simp [linksOf, docLinks]
              rw [this, linksOf_cons, k2]
              simp
            have e : j.name = k.name := by
              have := j1.name.symm.trans (hc.2.trans (d2.symm.trans k1.name))
              exact Option.some.inj this
            rw [j2] at hj
            refine (List.nodup_append.1 hj).2.2 j.name (by simp) k.name ?_ e
            exact List.mem_map_of_mem hk
          · rw [d1] at e; simp at e
          · exact e d1
        · rw [hc.1] at e; simp at e
        · exact e hc.1
    · rw [if_neg hc, List.filter_cons_of_pos (by simp only [decide_eq_true_eq]; exact hc), ih hdoc]

/-! ### Types and masses -/

theorem makeType_retyped (n : Node) (ty : String) :
    Retyped ty n ((n.put ["<xmlattr>", "type"] (.ofStr ty)).erase "axis") := by
  have h1 := Node.find_erase_ne (n.put ["<xmlattr>", "type"] (.ofStr ty))
    (by decide : "<xmlattr>" ≠ "axis")
  refine ⟨?_, ?_, Node.all_erase _ _, ?_⟩
  · exact ((sameBut_put n _ _ _).mono (by simp)).trans ((sameBut_erase _ _).mono (by simp))
  · simp only [Node.getStr, Node.get_congr h1]
    exact Node.getStr_put _ _ n
  · intro a p ha
    rw [Node.get_congr h1]
    exact Node.get_put_part _ n (by simp [Node.Part, ha])

theorem _root_.AlMath.Spec.UrdfXml.Retyped.trans {ty : String} {a b c : Node} (h : Retyped ty a b) (h' : Retyped ty b c) :
    Retyped ty a c :=
  ⟨h.same.trans h'.same, h'.type, h'.axis, fun x p hx => (h'.attrs x p hx).trans (h.attrs x p hx)⟩

theorem _root_.AlMath.Spec.UrdfXml.Retyped.name {ty : String} {a b : Node} (h : Retyped ty a b) : b.name = a.name := by
  simp only [Node.name, Node.getStr, h.attrs "name" [] (by decide)]

theorem joint_find {x : XTree} {name : String} {n : Node} (h : x.joint name = some n) :
    findEl "joint" name x.doc = some n := by
  unfold XTree.joint at h
  split_ifs at h
  exact h

theorem setType_edited {x : XTree} {name : String} {n : Node} (h : x.joint name = some n) (ty : String) :
    Edited (fun c m => c.1 = "joint" ∧ c.2.name = some name ∧ Retyped ty c.2 m) x.doc
      (setEl "joint" name ((n.put ["<xmlattr>", "type"] (.ofStr ty)).erase "axis") x.doc) := by
  refine edited_setEl fun k hk => ?_
  rw [joint_find h] at hk
  cases hk
  exact ⟨rfl, (mem_findEl (joint_find h)).2, makeType_retyped n ty⟩

/-- What the functions that squash masses do to an element. Helper of the proofs. Not in /repo:
specification. -/
def MassEdit (names : Set String) (c : String × Node) (n : Node) : Prop :=
  c.1 = "link" ∧ (∃ a ∈ names, c.2.name = some a) ∧ SameBut ["inertial"] c.2 n

theorem MassEdit.trans {names : Set String} {c : String × Node} {n m : Node} (h : MassEdit names c n)
    (h' : MassEdit names (c.1, n) m) : MassEdit names c m :=
  ⟨h.1, h.2.1, h.2.2.trans h'.2.2⟩

theorem squash_edited [Printer] (x : XTree) (j : Node) {parent child : String}
    (hp : j.parentLink = some parent) (hc : j.childLink = some child) :
    Edited (MassEdit {parent, child}) x.doc (x.squashJoint j).2.doc ∧
    ((x.squashJoint j).1 = .ok () → ∀ n, (x.squashJoint j).2.link child = some n →
      n.all "inertial" = []) := by
  unfold XTree.squashJoint
  rw [hc]
  dsimp only
  cases hl : x.link child with
  | none => exact ⟨Edited.refl _ _, by simp⟩
  | some c =>
    dsimp only
    cases hi : c.find "inertial" with
    | none =>
      refine ⟨Edited.refl _ _, fun _ n hn => ?_⟩
      dsimp only at hn
      rw [hl] at hn
      cases hn
      rw [← Node.head_all] at hi
      simpa using hi
    | some ci =>
      dsimp only
      rw [hp]
      dsimp only
      cases hpl : x.link parent with
      | none => exact ⟨Edited.refl _ _, by simp⟩
      | some p =>
        dsimp only
        cases hm : mergeInertial j ci (p.find "inertial") with
        | throws => exact ⟨Edited.refl _ _, by simp⟩
        | ub => exact ⟨Edited.refl _ _, by simp⟩
        | ok i =>
          dsimp only
          have e1 : Edited (MassEdit {parent, child}) x.doc
              (setEl "link" parent (p.putChild "inertial" i) x.doc) := by
            refine edited_setEl fun k hk => ?_
            rw [show findEl "link" parent x.doc = some p from hpl] at hk
            cases hk
            exact ⟨rfl, ⟨parent, by simp, (mem_findEl hpl).2⟩, sameBut_putChild _ _ _⟩
          cases hf : findEl "link" child (setEl "link" parent (p.putChild "inertial" i) x.doc) with
          | none => exact ⟨Edited.refl _ _, by simp⟩
          | some c1 =>
            dsimp only
            have hn := (mem_findEl hf).2
            have hn' : (c1.erase "inertial").name = some child := by
              rw [(sameBut_erase c1 "inertial").name (by simp), hn]
            refine ⟨e1.trans (edited_setEl fun k hk => ?_) (fun _ _ h => h)
              (fun _ _ _ h h' => h.trans h'), fun _ n hn2 => ?_⟩
            · rw [hf] at hk
              cases hk
              exact ⟨rfl, ⟨child, by simp, hn⟩, sameBut_erase _ _⟩
            · unfold XTree.link at hn2
              dsimp only at hn2
              rw [findEl_setEl _ _ _ _ hn' (by rw [hf]; simp)] at hn2
              cases hn2
              exact Node.all_erase _ _

/-! ### Traversals -/

theorem walkList_inv {τ : Type} {vis : Visitor τ} {I : XTree × τ → Prop}
    (hd : ∀ j n s, I s → s.1.joint j = some n → I (vis.discover j n s).2)
    (hf : ∀ j n s, I s → s.1.joint j = some n → I (vis.finish j n s).2)
    (recur : String → XTree × τ → Option (Res Unit × XTree × τ))
    (hrec : ∀ l s r s', I s → recur l s = some (r, s') → I s') (L : List String) (s : XTree × τ)
    (r : Res Unit) (s' : XTree × τ) (hs : I s) (h : walkList vis recur L s = some (r, s')) : I s' := by
  induction L generalizing s with
  | nil => simp only [walkList, Option.some.injEq, Prod.mk.injEq] at h; rw [← h.2]; exact hs
  | cons j L ih =>
    simp only [walkList] at h
    cases hj : s.1.joint j with
    | none =>
      rw [hj] at h
      simp only [Option.some.injEq, Prod.mk.injEq] at h
      rw [← h.2]; exact hs
    | some n =>
      rw [hj] at h
      dsimp only at h
      have h1 := hd j n s hs hj
      rcases hD : vis.discover j n s with ⟨r1, s1⟩
      rw [hD] at h h1
      cases r1 with
      | throws => simp only [Option.some.injEq, Prod.mk.injEq] at h; rw [← h.2]; exact h1
      | ub => simp only [Option.some.injEq, Prod.mk.injEq] at h; rw [← h.2]; exact h1
      | ok b =>
        dsimp only at h h1
        have hmid : ∀ r2 s2, (if b = true then walkChild recur j s1 else some (.ok (), s1)) =
            some (r2, s2) → I s2 := by
          intro r2 s2 he
          cases b with
          | false => simp at he; rw [← he.2]; exact h1
          | true =>
            simp only [if_true, walkChild] at he
            cases hc : (s1.1.joint j).bind Node.childLink with
            | none =>
              rw [hc] at he
              simp only [Option.some.injEq, Prod.mk.injEq] at he
              rw [← he.2]; exact h1
            | some c => rw [hc] at he; exact hrec _ _ _ _ h1 he
        cases hm : (if b = true then walkChild recur j s1 else some (.ok (), s1)) with
        | none => rw [hm] at h; simp at h
        | some p =>
          obtain ⟨r2, s2⟩ := p
          have h2 := hmid _ _ hm
          rw [hm] at h
          cases r2 with
          | throws => simp only [Option.some.injEq, Prod.mk.injEq] at h; rw [← h.2]; exact h2
          | ub => simp only [Option.some.injEq, Prod.mk.injEq] at h; rw [← h.2]; exact h2
          | ok u =>
            dsimp only at h
            cases hj2 : s2.1.joint j with
            | none =>
              rw [hj2] at h
              simp only [Option.some.injEq, Prod.mk.injEq] at h
              rw [← h.2]; exact h2
            | some n2 =>
              rw [hj2] at h
              dsimp only at h
              have h3 := hf j n2 s2 h2 hj2
              rcases hF : vis.finish j n2 s2 with ⟨r3, s3⟩
              rw [hF] at h h3
              cases r3 with
              | throws => simp only [Option.some.injEq, Prod.mk.injEq] at h; rw [← h.2]; exact h3
              | ub => simp only [Option.some.injEq, Prod.mk.injEq] at h; rw [← h.2]; exact h3
              | ok u => exact ih s3 h3 h

theorem walkJoint_inv {τ : Type} {vis : Visitor τ} {I : XTree × τ → Prop}
    (hd : ∀ j n s, I s → s.1.joint j = some n → I (vis.discover j n s).2)
    (hf : ∀ j n s, I s → s.1.joint j = some n → I (vis.finish j n s).2) (k : ℕ) (link : String)
    (s : XTree × τ) (r : Res Unit) (s' : XTree × τ) (hs : I s)
    (h : walkJoint vis k link s = some (r, s')) : I s' := by
  induction k generalizing link s r s' with
  | zero => simp [walkJoint] at h
  | succ k ih => exact walkList_inv hd hf _ (fun l s r s' hs h => ih l s r s' hs h) _ s r s' hs h

end AlMath.UrdfXml
