import Verif.Lemmas.UrdfXmlFlip

/-!
Simulation of the functions that squash masses and of the traversals.
-/

namespace AlMath.UrdfXml

open AlMath.Urdf AlMath.Spec AlMath.Spec.UrdfXml

/-! ### Inertials -/

theorem origin_put_xyz [Printer] (n : Node) (a : Array3d) :
    (n.put ["origin", "<xmlattr>", "xyz"] (.ofVec a)).origin = putXyz a n.origin := by
  have hp : Node.Part ["<xmlattr>", "xyz"] ["<xmlattr>", "rpy"] := by simp [Node.Part]
  unfold Node.origin
  rw [Node.find_put_head, Option.map_some]
  simp only [Node.originElem, Node.getAttr_put _ (rfl : (Text.ofVec a).vec = some a),
    Node.getAttr_put_part _ _ hp]
  cases n.find "origin" with
  | none => simp [putXyz, Node.getAttr, Node.get_empty]
  | some o => rfl

theorem origin_put_rpy [Printer] (n : Node) (a : Array3d) :
    (n.put ["origin", "<xmlattr>", "rpy"] (.ofVec a)).origin = putRpy a n.origin := by
  have hp : Node.Part ["<xmlattr>", "rpy"] ["<xmlattr>", "xyz"] := by simp [Node.Part]
  unfold Node.origin
  rw [Node.find_put_head, Option.map_some]
  simp only [Node.originElem, Node.getAttr_put _ (rfl : (Text.ofVec a).vec = some a),
    Node.getAttr_put_part _ _ hp]
  cases n.find "origin" with
  | none => simp [putRpy, Node.getAttr, Node.get_empty]
  | some o => rfl

theorem origin_putPose [Printer] (T : ETransform) (n : Node) :
    (putPose T n).origin = Urdf.putPose T n.origin := by
  unfold putPose Urdf.putPose
  by_cases h1 : T.translation ≠ 0 <;> by_cases h2 : T.linear ≠ 1
  · simp only [if_pos h1, if_pos h2, origin_put_rpy, origin_put_xyz]
  · simp only [if_pos h1, if_neg h2, origin_put_xyz]
  · simp only [if_neg h1, if_pos h2, origin_put_rpy]
  · simp only [if_neg h1, if_neg h2]

theorem find_putPose_ne [Printer] (T : ETransform) (n : Node) {k : String} (hk : k ≠ "origin") :
    (putPose T n).find k = n.find k := by
  unfold putPose
  by_cases h1 : T.translation ≠ 0 <;> by_cases h2 : T.linear ≠ 1
  · simp only [if_pos h1, if_pos h2, Node.find_put_ne _ _ _ hk]
  · simp only [if_pos h1, if_neg h2, Node.find_put_ne _ _ _ hk]
  · simp only [if_neg h1, if_pos h2, Node.find_put_ne _ _ _ hk]
  · simp only [if_neg h1, if_neg h2]

theorem inertialData_congr {n n' : Node} (h1 : n'.find "mass" = n.find "mass")
    (h2 : n'.find "inertia" = n.find "inertia") : n'.inertialData = n.inertialData := by
  simp only [Node.inertialData, Node.getNum, Node.get_congr h1, Node.get_congr h2]

theorem inertialData_putData [Printer] (d : InertialData) (n : Node) :
    (putData d n).inertialData = some d := by
  have hm : ∀ a, Node.Part ["inertia", "<xmlattr>", a] ["mass", "<xmlattr>", "value"] := by
    simp [Node.Part]
  have hi : ∀ a b, b ≠ a → Node.Part ["inertia", "<xmlattr>", a] ["inertia", "<xmlattr>", b] := by
    intro a b h
    simp [Node.Part, h]
  unfold putData Node.inertialData
  simp only [Node.getNum_put_part _ _ (hm _), Node.getNum_put,
    Node.getNum_put_part _ _ (hi "izz" "ixx" (by decide)),
    Node.getNum_put_part _ _ (hi "izz" "ixy" (by decide)),
    Node.getNum_put_part _ _ (hi "izz" "ixz" (by decide)),
    Node.getNum_put_part _ _ (hi "izz" "iyy" (by decide)),
    Node.getNum_put_part _ _ (hi "izz" "iyz" (by decide)),
    Node.getNum_put_part _ _ (hi "iyz" "ixx" (by decide)),
    Node.getNum_put_part _ _ (hi "iyz" "ixy" (by decide)),
    Node.getNum_put_part _ _ (hi "iyz" "ixz" (by decide)),
    Node.getNum_put_part _ _ (hi "iyz" "iyy" (by decide)),
    Node.getNum_put_part _ _ (hi "iyy" "ixx" (by decide)),
    Node.getNum_put_part _ _ (hi "iyy" "ixy" (by decide)),
    Node.getNum_put_part _ _ (hi "iyy" "ixz" (by decide)),
    Node.getNum_put_part _ _ (hi "ixz" "ixx" (by decide)),
    Node.getNum_put_part _ _ (hi "ixz" "ixy" (by decide)),
    Node.getNum_put_part _ _ (hi "ixy" "ixx" (by decide))]
  rfl

theorem origin_putData [Printer] (d : InertialData) : (putData d Node.empty).origin = none := by
  unfold putData Node.origin
  simp [Node.find_put_ne, Node.find_empty]

/-- The numbers of an inertial can be read. Helper of the proofs. Not in /repo: specification. -/
def HasData (n : Node) : Prop := n.inertialData ≠ none

theorem mergeInertial_sim [Printer] {jn ci : Node} {j : UJoint} (hj : IsJoint jn j) (hc : HasData ci)
    (p : Option Node) (hp : ∀ n ∈ p, HasData n) :
    (mergeInertial jn ci p).map Node.toInertial =
      Urdf.mergeInertial j.origin ci.toInertial (p.map Node.toInertial) ∧
    ∀ n, mergeInertial jn ci p = .ok n → HasData n := by
  unfold mergeInertial Urdf.mergeInertial
  rw [hj.origin]
  have h0 : ci.toInertial.origin = ci.origin := rfl
  rw [h0]
  obtain ⟨cd, hcd⟩ := Option.ne_none_iff_exists'.1 hc
  have h1 : ci.toInertial.data = cd := by simp [Node.toInertial, hcd]
  cases UPose.fromPtree j.origin with
  | throws => simp
  | ub => simp
  | ok jo =>
    cases UPose.fromPtree ci.origin with
    | throws => simp
    | ub => simp
    | ok co =>
      simp only [Res.bind_ok]
      cases p with
      | none =>
        simp only [Option.map_none, Res.map_ok, Res.ok.injEq]
        have hd : ∀ T, (putPose T ci).inertialData = some cd := fun T => by
          rw [← hcd]
          exact inertialData_congr (find_putPose_ne _ _ (by decide)) (find_putPose_ne _ _ (by decide))
        refine ⟨?_, ?_⟩
        · simp only [Node.toInertial, origin_putPose, hd, hcd]
        · rintro n rfl
          unfold HasData
          rw [hd]; simp
      | some p =>
        obtain ⟨pd, hpd⟩ := Option.ne_none_iff_exists'.1 (hp p rfl)
        have h2 : p.toInertial.data = pd := by simp [Node.toInertial, hpd]
        have h3 : p.toInertial.origin = p.origin := rfl
        simp only [Option.map_some, h3, h2, h1]
        cases UPose.fromPtree p.origin with
        | throws => simp
        | ub => simp
        | ok po =>
          simp only [Res.bind_ok, readData, hpd, hcd]
          cases squashInertial pd.mass (toEigenTransform po) (toEigenMatrix3 pd) cd.mass
              ((toEigenTransform jo).mul (toEigenTransform co)) (toEigenMatrix3 cd) with
          | throws => simp
          | ub => simp
          | ok r =>
            simp only [Res.bind_ok, Res.map_ok, Res.ok.injEq]
            have hd : ∀ T d, (putPose T (putData d Node.empty)).inertialData = some d := fun T d => by
              rw [← inertialData_putData d Node.empty]
              exact inertialData_congr (find_putPose_ne _ _ (by decide))
                (find_putPose_ne _ _ (by decide))
            refine ⟨?_, ?_⟩
            · simp only [Node.toInertial, origin_putPose, hd, origin_putData, Option.getD_some]
            · rintro n rfl
              unfold HasData
              rw [hd]; simp

/-! ### Links -/

theorem isLink_putInertial {n i : Node} {l : ULink} (h : IsLink n l) :
    IsLink (n.putChild "inertial" i) (putInertial i.toInertial l) := by
  have hl : (putInertial i.toInertial l).name = l.name ∧ (putInertial i.toInertial l).visuals = l.visuals ∧
      (putInertial i.toInertial l).collisions = l.collisions ∧
      (putInertial i.toInertial l).inertials = i.toInertial :: l.inertials.tail := by
    unfold putInertial
    cases hi : l.inertials <;> simp
  obtain ⟨a1, a2, a3, a4⟩ := hl
  constructor
  · rw [a1, ← h.name]
    simp only [Node.name, Node.getStr,
      Node.get_congr (Node.find_putChild_ne i n (by decide : "<xmlattr>" ≠ "inertial"))]
  · rw [a4, Node.all_putChild, List.map_cons, List.map_tail, h.inertials]
  · rw [a2, Node.all_putChild_ne _ _ (by decide), h.visuals]
  · rw [a3, Node.all_putChild_ne _ _ (by decide), h.collisions]

theorem isLink_eraseInertial {n : Node} {l : ULink} (h : IsLink n l) :
    IsLink (n.erase "inertial") { l with inertials := [] } := by
  constructor
  · dsimp only
    rw [← h.name]
    simp only [Node.name, Node.getStr,
      Node.get_congr (Node.find_erase_ne n (by decide : "<xmlattr>" ≠ "inertial"))]
  · rw [Node.all_erase]; rfl
  · dsimp only
    rw [Node.all_erase_ne _ (by decide), h.visuals]
  · dsimp only
    rw [Node.all_erase_ne _ (by decide), h.collisions]

theorem findLink_name {L : List ULink} (h : (L.map ULink.name).Nodup) {j : ULink} (hj : j ∈ L) :
    L.find? (fun k => k.name = j.name) = some j := by
  induction L with
  | nil => simp at hj
  | cons a L ih =>
    rw [List.map_cons, List.nodup_cons] at h
    rcases List.mem_cons.1 hj with rfl | hj'
    · simp
    · have : a.name ≠ j.name := by
        intro e
        exact h.1 (e ▸ List.mem_map_of_mem hj')
      rw [List.find?_cons_of_neg (by simpa using this)]
      exact ih h.2 hj'

theorem editLink_congr {t : Tree} {l : ULink} (hnd : (t.links.map ULink.name).Nodup)
    (hl : t.findLink l.name = some l) (f g : ULink → ULink) (h : f l = g l) :
    t.editLink l.name f = t.editLink l.name g := by
  unfold Tree.editLink
  congr 1
  refine List.map_congr_left fun k hk => ?_
  split_ifs with hn
  · have : k = l := by
      have e1 := findLink_name hnd hk
      rw [hn] at e1
      exact Option.some.inj (e1.symm.trans hl)
    rw [this, h]
  · rfl

/-- The numbers of all the inertials of the links of a document can be read. Helper of the proofs. Not
in /repo: specification. -/
def DataOk (doc : Nodes) : Prop :=
  ∀ c ∈ doc, c.1 = "link" → ∀ i ∈ c.2.all "inertial", HasData i

theorem mem_setEl {key name : String} {n : Node} {doc : Nodes} {c : String × Node}
    (h : c ∈ setEl key name n doc) : c ∈ doc ∨ c = (key, n) := by
  induction doc with
  | nil => simp [setEl] at h
  | cons d doc ih =>
    simp only [setEl] at h
    split_ifs at h with hd
    · rcases List.mem_cons.1 h with rfl | h
      · right; rw [hd.1]
      · left; simp [h]
    · rcases List.mem_cons.1 h with rfl | h
      · left; simp
      · rcases ih h with h | h
        · left; simp [h]
        · right; exact h

theorem mem_findEl {key name : String} {n : Node} {doc : Nodes} (h : findEl key name doc = some n) :
    (key, n) ∈ doc ∧ n.name = some name := by
  unfold findEl at h
  obtain ⟨c, hc, rfl⟩ := Option.map_eq_some_iff.1 h
  have h1 := List.mem_of_find?_eq_some hc
  have h2 : c.1 = key ∧ c.2.name = some name := by simpa using List.find?_some hc
  exact ⟨by rw [← h2.1]; exact h1, h2.2⟩

theorem DataOk.setJoint {doc : Nodes} (h : DataOk doc) (name : String) (n : Node) :
    DataOk (setEl "joint" name n doc) := by
  intro c hc hk
  rcases mem_setEl hc with hc | rfl
  · exact h c hc hk
  · simp at hk

theorem squashJoint_sim [Printer] {x : XTree} (h : InStep x) (hd : DataOk x.doc) {jn : Node} {j : UJoint}
    (hj : IsJoint jn j) :
    (x.squashJoint jn).1 = ((view x).squashJoint j).1 ∧
    view (x.squashJoint jn).2 = ((view x).squashJoint j).2 ∧ InStep (x.squashJoint jn).2 ∧
    DataOk (x.squashJoint jn).2.doc := by
  unfold XTree.squashJoint Tree.squashJoint
  rw [hj.child, hj.parent]
  dsimp only
  rcases h.link_cases j.child with ⟨h1, h2⟩ | ⟨c, l, h1, h2, h3, h4⟩
  · rw [h1, h2]; exact ⟨rfl, rfl, h, hd⟩
  rw [h1, h4]
  dsimp only
  have hall : l.inertials.head? = (c.find "inertial").map Node.toInertial := by
    rw [← h2.inertials, List.head?_map, Node.head_all]
  cases hci : c.find "inertial" with
  | none =>
    rw [hci] at hall
    have : l.inertials = [] := by simpa using hall
    rw [this]
    exact ⟨rfl, rfl, h, hd⟩
  | some ci =>
    rw [hci] at hall
    obtain ⟨rest, hrest⟩ : ∃ rest, l.inertials = ci.toInertial :: rest := by
      cases hi : l.inertials with
      | nil => rw [hi] at hall; simp at hall
      | cons a rest =>
        rw [hi] at hall
        simp only [List.head?_cons, Option.map_some, Option.some.injEq] at hall
        exact ⟨rest, by rw [hall]⟩
    rw [hrest]
    dsimp only
    have hcid : HasData ci := by
      refine hd _ (mem_findEl h1).1 rfl ci ?_
      have := Node.head_all "inertial" c
      rw [hci] at this
      exact List.mem_of_mem_head? this
    rcases h.link_cases j.parent with ⟨p1, p2⟩ | ⟨p, lp, p1, p2, p3, p4⟩
    · rw [p1, p2]; exact ⟨rfl, rfl, h, hd⟩
    rw [p1, p4]
    dsimp only
    have hpi : lp.inertials.head? = (p.find "inertial").map Node.toInertial := by
      rw [← p2.inertials, List.head?_map, Node.head_all]
    have hpd : ∀ i ∈ p.all "inertial", HasData i := hd _ (mem_findEl p1).1 rfl
    obtain ⟨m1, m2⟩ := mergeInertial_sim hj hcid (p.find "inertial") (by
      intro i hi
      refine hpd i ?_
      rw [← Node.head_all] at hi
      exact List.mem_of_mem_head? hi)
    rw [hpi, ← m1]
    cases hm : mergeInertial jn ci (p.find "inertial") with
    | throws => exact ⟨rfl, rfl, h, hd⟩
    | ub => exact ⟨rfl, rfl, h, hd⟩
    | ok i =>
      simp only [Res.map_ok]
      have k1 := isLink_putInertial (i := i) p2
      have hn1 : (putInertial i.toInertial lp).name = j.parent := by
        rw [← p3]; unfold putInertial; cases lp.inertials <;> rfl
      obtain ⟨v1, v2⟩ := view_setLink h k1
      rw [hn1] at v1 v2
      have hd1 : DataOk (setEl "link" j.parent (p.putChild "inertial" i) x.doc) := by
        intro c hc hk
        rcases mem_setEl hc with hc | rfl
        · exact hd c hc hk
        · intro i' hi'
          rw [Node.all_putChild] at hi'
          rcases List.mem_cons.1 hi' with rfl | hi'
          · exact m2 _ hm
          · exact hpd i' (List.mem_of_mem_tail hi')
      have v2' : view { x with doc := setEl "link" j.parent (p.putChild "inertial" i) x.doc } =
          (view x).editLink j.parent (putInertial i.toInertial) := by
        rw [v2, ← p3]
        exact editLink_congr h.doc.links_nodup (by rw [p3]; exact p4) _ _ rfl
      have hsome : findEl "link" j.child (setEl "link" j.parent (p.putChild "inertial" i) x.doc) ≠ none := by
        by_cases hpc : j.child = j.parent
        · rw [hpc, findEl_setEl _ _ _ _ (by rw [k1.name, hn1])
            (by rw [show findEl "link" j.parent x.doc = some p from p1]; simp)]
          simp
        · rw [findEl_setEl_ne _ _ _ _ _ _ (by rw [k1.name, hn1]) (Or.inr hpc),
            show findEl "link" j.child x.doc = some c from h1]
          simp
      rcases v1.link_cases j.child with ⟨q1, -⟩ | ⟨c1, l1, q1, q2, q3, q4⟩
      · exact absurd q1 hsome
      rw [show findEl "link" j.child (setEl "link" j.parent (p.putChild "inertial" i) x.doc) = some c1
        from q1]
      dsimp only
      have k2 := isLink_eraseInertial q2
      obtain ⟨w1, w2⟩ := view_setLink v1 k2
      rw [show ({ l1 with inertials := [] } : ULink).name = j.child from q3] at w1 w2
      refine ⟨rfl, ?_, w1, ?_⟩
      · dsimp only at w2
        rw [w2, v2', ← q3]
        refine editLink_congr ?_ (by rw [q3, ← v2']; exact q4) _ _ rfl
        rw [← v2']
        exact v1.doc.links_nodup
      · intro c hc hk
        rcases mem_setEl hc with hc | rfl
        · exact hd1 c hc hk
        · intro i' hi'
          rw [Node.all_erase] at hi'
          simp at hi'

theorem squashJointMass_sim [Printer] {x : XTree} (h : InStep x) (hd : DataOk x.doc) (name : String) :
    (x.squashJointMass name).1 = ((view x).squashJointMass name).1 ∧
    view (x.squashJointMass name).2 = ((view x).squashJointMass name).2 ∧
    InStep (x.squashJointMass name).2 ∧ DataOk (x.squashJointMass name).2.doc := by
  unfold XTree.squashJointMass Tree.squashJointMass
  rcases h.joint_cases name with ⟨-, h1, h2⟩ | ⟨n, j, -, h1, h2, h3, -, h5, h6⟩
  · rw [h1, h2]; exact ⟨rfl, rfl, h, hd⟩
  · rw [h1, h6]
    exact squashJoint_sim h hd h3

/-! ### Traversals -/

/-- The name and the links of a joint. Helper of the proofs. Not in /repo: specification. -/
def bone (j : UJoint) : String × String × String := (j.name, j.parent, j.child)

/-- The tree has the same joints, up to their contents. Helper of the proofs. Not in /repo:
specification. -/
def Bones (t0 t : Tree) : Prop := t.joints.map bone = t0.joints.map bone

theorem childJoints_bones {t0 t : Tree} (h : Bones t0 t) (link : String) :
    (t.childJoints link).map bone = (t0.childJoints link).map bone := by
  unfold Tree.childJoints
  have e : ∀ L : List UJoint, (L.filter fun j => decide (j.parent = link)).map bone =
      (L.map bone).filter fun b => decide (b.2.1 = link) := by
    intro L
    rw [List.filter_map]; rfl
  rw [e, e, h]

theorem bones_names {L M : List UJoint} (h : L.map bone = M.map bone) :
    L.map UJoint.name = M.map UJoint.name := by
  have e : ∀ L : List UJoint, L.map UJoint.name = (L.map bone).map Prod.fst := by
    intro L; rw [List.map_map]; rfl
  rw [e, e, h]

theorem bones_mem {t0 t : Tree} (h : Bones t0 t) {j : UJoint} (hj : j ∈ t0.joints) :
    ∃ k ∈ t.joints, k.name = j.name ∧ k.parent = j.parent ∧ k.child = j.child := by
  have : bone j ∈ t.joints.map bone := by rw [h]; exact List.mem_map_of_mem hj
  obtain ⟨k, hk, e⟩ := List.mem_map.1 this
  simp only [bone, Prod.mk.injEq] at e
  exact ⟨k, hk, e.1, e.2.1, e.2.2⟩

/-- Conditions for a visitor of documents to do what a visitor of trees does. Helper of the proofs. Not
in /repo: specification. -/
structure Simulates {τ σ : Type} (vis : Visitor τ) (avis : Urdf.Visitor σ) (t0 : Tree)
    (R : XTree × τ → σ → Prop) : Prop where
  inStep : ∀ s a, R s a → InStep s.1 ∧ Bones t0 (view s.1)
  discover : ∀ s a j n k, R s a → j ∈ t0.joints → s.1.joint j.name = some n → IsJoint n k →
    k.name = j.name → (view s.1).findJoint j.name = some k →
    (vis.discover j.name n s).1 = (avis.discover j a).1 ∧
      R (vis.discover j.name n s).2 (avis.discover j a).2
  finish : ∀ s a j n k, R s a → j ∈ t0.joints → s.1.joint j.name = some n → IsJoint n k →
    k.name = j.name → (view s.1).findJoint j.name = some k →
    (vis.finish j.name n s).1 = (avis.finish j a).1 ∧ R (vis.finish j.name n s).2 (avis.finish j a).2

/-- The outcomes of two traversals agree. Helper of the proofs. Not in /repo: specification. -/
def Agree {τ σ : Type} (R : XTree × τ → σ → Prop) (o : Option (Res Unit × XTree × τ))
    (o' : Option (Res Unit × σ)) : Prop :=
  (o = none ∧ o' = none) ∨ ∃ r s a, o = some (r, s) ∧ o' = some (r, a) ∧ R s a

theorem element {x : XTree} (h : InStep x) {t0 : Tree} (hb : Bones t0 (view x)) {j : UJoint}
    (hj : j ∈ t0.joints) : ∃ n k, x.joint j.name = some n ∧ IsJoint n k ∧ k.name = j.name ∧
      k.child = j.child ∧ (view x).findJoint j.name = some k := by
  obtain ⟨k, hk, h1, h2, h3⟩ := bones_mem hb hj
  obtain ⟨n, e1, -, e2⟩ := h.joint_of_mem hk
  refine ⟨n, k, by rw [← h1]; exact e1, e2, h1, h3, ?_⟩
  rw [← h1]
  exact find_name h.view_nodup hk

theorem walkList_sim {τ σ : Type} {vis : Visitor τ} {avis : Urdf.Visitor σ} {t0 : Tree}
    {R : XTree × τ → σ → Prop} (hs : Simulates vis avis t0 R)
    (rec1 : String → XTree × τ → Option (Res Unit × XTree × τ))
    (rec2 : String → σ → Option (Res Unit × σ))
    (hrec : ∀ l s a, R s a → Agree R (rec1 l s) (rec2 l a)) (L : List UJoint)
    (hL : ∀ j ∈ L, j ∈ t0.joints) (s : XTree × τ) (a : σ) (hR : R s a) :
    Agree R (walkList vis rec1 (L.map UJoint.name) s) (Urdf.walkList avis rec2 L a) := by
  induction L generalizing s a with
  | nil => right; exact ⟨_, _, _, rfl, rfl, hR⟩
  | cons j L ih =>
    have hj := hL j (by simp)
    obtain ⟨i1, i2⟩ := hs.inStep s a hR
    obtain ⟨n, k, e1, e2, e3, -, e4⟩ := element i1 i2 hj
    obtain ⟨d1, d2⟩ := hs.discover s a j n k hR hj e1 e2 e3 e4
    simp only [List.map_cons, walkList, Urdf.walkList, e1]
    rcases hD : vis.discover j.name n s with ⟨r, s1⟩
    rcases hD' : avis.discover j a with ⟨r', a1⟩
    rw [hD, hD'] at d1 d2
    simp only at d1 d2
    subst d1
    cases r with
    | throws => right; exact ⟨_, _, _, rfl, rfl, d2⟩
    | ub => right; exact ⟨_, _, _, rfl, rfl, d2⟩
    | ok b =>
      dsimp only
      obtain ⟨i3, i4⟩ := hs.inStep s1 a1 d2
      obtain ⟨n1, k1, f1, f2, f3, f4, f5⟩ := element i3 i4 hj
      have hmid : Agree R (if b = true then walkChild rec1 j.name s1 else some (.ok (), s1))
          (if b = true then rec2 j.child a1 else some (.ok (), a1)) := by
        cases b with
        | false => right; exact ⟨_, _, _, rfl, rfl, d2⟩
        | true =>
          simp only [if_true]
          unfold walkChild
          simp only [f1, Option.bind_some, f2.child, f4]
          exact hrec _ _ _ d2
      rcases hmid with ⟨m1, m2⟩ | ⟨r, s2, a2, m1, m2, m3⟩
      · rw [m1, m2]; left; exact ⟨rfl, rfl⟩
      · rw [m1, m2]
        cases r with
        | throws => right; exact ⟨_, _, _, rfl, rfl, m3⟩
        | ub => right; exact ⟨_, _, _, rfl, rfl, m3⟩
        | ok u =>
          dsimp only
          obtain ⟨i5, i6⟩ := hs.inStep s2 a2 m3
          obtain ⟨n2, k2, g1, g2, g3, -, g5⟩ := element i5 i6 hj
          rw [g1]
          dsimp only
          obtain ⟨c1, c2⟩ := hs.finish s2 a2 j n2 k2 m3 hj g1 g2 g3 g5
          rcases hF : vis.finish j.name n2 s2 with ⟨r, s3⟩
          rcases hF' : avis.finish j a2 with ⟨r', a3⟩
          rw [hF, hF'] at c1 c2
          simp only at c1 c2
          subst c1
          cases r with
          | throws => right; exact ⟨_, _, _, rfl, rfl, c2⟩
          | ub => right; exact ⟨_, _, _, rfl, rfl, c2⟩
          | ok u => exact ih (fun k hk => hL k (by simp [hk])) s3 a3 c2

theorem walkJoint_sim {τ σ : Type} {vis : Visitor τ} {avis : Urdf.Visitor σ} {t0 : Tree}
    {R : XTree × τ → σ → Prop} (hs : Simulates vis avis t0 R) (n : ℕ) (link : String) (s : XTree × τ)
    (a : σ) (hR : R s a) : Agree R (walkJoint vis n link s) (Urdf.walkJoint avis t0 n link a) := by
  induction n generalizing link s a with
  | zero => left; exact ⟨rfl, rfl⟩
  | succ n ih =>
    unfold walkJoint Urdf.walkJoint
    obtain ⟨i1, i2⟩ := hs.inStep s a hR
    have e : s.1.childJoints link = (t0.childJoints link).map UJoint.name := by
      rw [i1.childJoints_eq, bones_names (childJoints_bones i2 link)]
    rw [e]
    refine walkList_sim hs _ _ (fun l s a h => ih l s a h) _ ?_ s a hR
    intro j hj
    exact (List.mem_filter.1 hj).1

theorem traverse_sim {τ σ : Type} {vis : Visitor τ} {avis : Urdf.Visitor σ} {R : XTree × τ → σ → Prop}
    {s : XTree × τ} {a : σ} (hs : Simulates vis avis (view s.1) R) (n : ℕ) (hR : R s a) :
    Agree R (traverseJoints vis n s) (Urdf.traverseJoints avis (view s.1) n a) :=
  walkJoint_sim hs n s.1.root s a hR

theorem bones_editJoint {t0 t : Tree} (h : Bones t0 t) (name : String) (f : UJoint → UJoint)
    (hf : ∀ j, bone (f j) = bone j) : Bones t0 (t.editJoint name f) := by
  unfold Bones Tree.editJoint at *
  rw [← h]
  simp only [List.map_map]
  refine List.map_congr_left fun k _ => ?_
  simp only [Function.comp]
  split_ifs
  · exact hf k
  · rfl

theorem makeFixed_state {x : XTree} (h : InStep x) {name : String} {n : Node} {k : UJoint}
    (hn : x.joint name = some n) (hk : IsJoint n k) (hkn : k.name = name)
    (hf : (view x).findJoint name = some k) :
    InStep { x with doc := setEl "joint" name (makeFixed n) x.doc } ∧
    view { x with doc := setEl "joint" name (makeFixed n) x.doc } =
      ((view x).makeJointFixed name).2 := by
  have h1 := makeJointFixed_sim h name
  unfold XTree.makeJointFixed at h1
  rw [hn] at h1
  exact ⟨h1.2.2, h1.2.1⟩

theorem bones_makeFixed {t0 t : Tree} (h : Bones t0 t) (name : String) :
    Bones t0 (t.makeJointFixed name).2 := by
  unfold Tree.makeJointFixed
  cases t.findJoint name with
  | none => exact h
  | some k => exact bones_editJoint h name _ fun j => rfl

theorem continuous_sim {x : XTree} (h : InStep x) (n : ℕ) :
    Agree (fun s (a : Tree × List String) => InStep s.1 ∧ view s.1 = a.1 ∧ s.2 = a.2)
      (makeContinuousJointsFixed n x) (Urdf.makeContinuousJointsFixed n (view x)) := by
  have hs : Simulates continuousVisitor Urdf.continuousVisitor (view x)
      (fun s (a : Tree × List String) =>
        InStep s.1 ∧ Bones (view x) (view s.1) ∧ view s.1 = a.1 ∧ s.2 = a.2) := by
    refine ⟨fun s a hR => ⟨hR.1, hR.2.1⟩, ?_, ?_⟩
    · rintro s a j n k ⟨r1, r2, r3, r4⟩ hj e1 e2 e3 e4
      simp only [continuousVisitor, Urdf.continuousVisitor]
      rw [← r3, e4]
      dsimp only
      rw [e2.type]
      cases k.type with
      | none => exact ⟨rfl, r1, r2, r3, r4⟩
      | some ty =>
        cases ty with
        | continuous =>
          dsimp only
          obtain ⟨m1, m2⟩ := makeFixed_state r1 e1 e2 e3 e4
          rw [e3]
          exact ⟨rfl, m1, by rw [m2]; exact bones_makeFixed r2 _, m2, by rw [r4]⟩
        | revolute => exact ⟨rfl, r1, r2, r3, r4⟩
        | prismatic => exact ⟨rfl, r1, r2, r3, r4⟩
        | fixed => exact ⟨rfl, r1, r2, r3, r4⟩
        | floating => exact ⟨rfl, r1, r2, r3, r4⟩
        | planar => exact ⟨rfl, r1, r2, r3, r4⟩
    · rintro s a j n k hR hj e1 e2 e3 e4
      exact ⟨rfl, hR⟩
  have := traverse_sim (s := (x, [])) (a := (view x, [])) hs n ⟨h, rfl, rfl, rfl⟩
  rcases this with h | ⟨r, s, a, h1, h2, h3⟩
  · left; exact h
  · right; exact ⟨r, s, a, h1, h2, h3.1, h3.2.2⟩

theorem bones_squash [Printer] {t0 t : Tree} (h : Bones t0 t) (j : UJoint) : Bones t0 (t.squashJoint j).2 := by
  unfold Tree.squashJoint
  cases t.findLink j.child with
  | none => exact h
  | some c =>
    dsimp only
    cases c.inertials with
    | nil => exact h
    | cons ci rest =>
      dsimp only
      cases t.findLink j.parent with
      | none => exact h
      | some p =>
        dsimp only
        cases Urdf.mergeInertial j.origin ci p.inertials.head? with
        | throws => exact h
        | ub => exact h
        | ok i => exact h

theorem squashFixed_sim [Printer] {x : XTree} (h : InStep x) (hd : DataOk x.doc) (n : ℕ) :
    Agree (fun s (a : Tree) => InStep s.1 ∧ view s.1 = a)
      (squashFixedJointsMass n x) (Urdf.squashFixedJointsMass n (view x)) := by
  have hs : Simulates squashFixedVisitor Urdf.squashFixedVisitor (view x)
      (fun s (a : Tree) => InStep s.1 ∧ Bones (view x) (view s.1) ∧ DataOk s.1.doc ∧ view s.1 = a) := by
    refine ⟨fun s a hR => ⟨hR.1, hR.2.1⟩, ?_, ?_⟩
    · rintro s a j n k hR hj e1 e2 e3 e4
      exact ⟨rfl, hR⟩
    · rintro s a j n k ⟨r1, r2, r3, r4⟩ hj e1 e2 e3 e4
      simp only [squashFixedVisitor, Urdf.squashFixedVisitor]
      rw [← r4, e4]
      dsimp only
      rw [e2.type]
      cases k.type with
      | none => exact ⟨rfl, r1, r2, r3, rfl⟩
      | some ty =>
        cases ty with
        | fixed =>
          dsimp only
          obtain ⟨m1, m2, m3, m4⟩ := squashJoint_sim r1 r3 e2
          exact ⟨m1, m3, by rw [m2]; exact bones_squash r2 _, m4, m2⟩
        | continuous => exact ⟨rfl, r1, r2, r3, rfl⟩
        | revolute => exact ⟨rfl, r1, r2, r3, rfl⟩
        | prismatic => exact ⟨rfl, r1, r2, r3, rfl⟩
        | floating => exact ⟨rfl, r1, r2, r3, rfl⟩
        | planar => exact ⟨rfl, r1, r2, r3, rfl⟩
  have := traverse_sim (s := (x, ())) (a := view x) hs n ⟨h, rfl, hd, rfl⟩
  rcases this with h | ⟨r, s, a, h1, h2, h3⟩
  · left; exact h
  · right; exact ⟨r, s, a, h1, h2, h3.1, h3.2.2.2⟩

theorem massless_sim [Printer] {x : XTree} (h : InStep x) (hd : DataOk x.doc) (n : ℕ) :
    Agree (fun s (a : Tree × List String) => InStep s.1 ∧ view s.1 = a.1 ∧ s.2 = a.2)
      (makeMasslessJointsFixed n x) (Urdf.makeMasslessJointsFixed n (view x)) := by
  have hs : Simulates masslessVisitor Urdf.masslessVisitor (view x)
      (fun s (a : Tree × List String) =>
        InStep s.1 ∧ Bones (view x) (view s.1) ∧ DataOk s.1.doc ∧ view s.1 = a.1 ∧ s.2 = a.2) := by
    refine ⟨fun s a hR => ⟨hR.1, hR.2.1⟩, ?_, ?_⟩
    · rintro s a j n k hR hj e1 e2 e3 e4
      exact ⟨rfl, hR⟩
    · rintro s a j n k ⟨r1, r2, r3, r4, r5⟩ hj e1 e2 e3 e4
      simp only [masslessVisitor, Urdf.masslessVisitor]
      rw [← r4, e4]
      dsimp only
      rw [e2.type]
      have hchild : ∀ (ty : JType), ty ≠ .fixed →
          (match n.childLink.bind s.1.link with
            | none => ((Res.throws : Res Unit), s)
            | some c =>
              match c.find "inertial" with
              | none => (.ok (), { s.1 with doc := setEl "joint" j.name (makeFixed n) s.1.doc },
                  s.2 ++ [j.name])
              | some _ => (.ok (), s)).1 =
          (match (view s.1).findLink k.child with
            | none => ((Res.throws : Res Unit), a)
            | some c =>
              match c.inertials with
              | [] => (.ok (), ((view s.1).makeJointFixed k.name).2, a.2 ++ [k.name])
              | _ => (.ok (), a)).1 ∧
          (fun (s : XTree × List String) (a : Tree × List String) =>
            InStep s.1 ∧ Bones (view x) (view s.1) ∧ DataOk s.1.doc ∧ view s.1 = a.1 ∧ s.2 = a.2)
          (match n.childLink.bind s.1.link with
            | none => ((Res.throws : Res Unit), s)
            | some c =>
              match c.find "inertial" with
              | none => (.ok (), { s.1 with doc := setEl "joint" j.name (makeFixed n) s.1.doc },
                  s.2 ++ [j.name])
              | some _ => (.ok (), s)).2
          (match (view s.1).findLink k.child with
            | none => ((Res.throws : Res Unit), a)
            | some c =>
              match c.inertials with
              | [] => (.ok (), ((view s.1).makeJointFixed k.name).2, a.2 ++ [k.name])
              | _ => (.ok (), a)).2 := by
        intro ty _
        rw [e2.child, Option.bind_some]
        rcases r1.link_cases k.child with ⟨l1, l2⟩ | ⟨c, l, l1, l2, l3, l4⟩
        · rw [l1, l2]; exact ⟨rfl, r1, r2, r3, r4, r5⟩
        · rw [l1, l4]
          dsimp only
          have hall : l.inertials.head? = (c.find "inertial").map Node.toInertial := by
            rw [← l2.inertials, List.head?_map, Node.head_all]
          cases hci : c.find "inertial" with
          | none =>
            rw [hci] at hall
            have : l.inertials = [] := by simpa using hall
            rw [this]
            dsimp only
            obtain ⟨m1, m2⟩ := makeFixed_state r1 e1 e2 e3 e4
            rw [e3]
            exact ⟨rfl, m1, by rw [m2]; exact bones_makeFixed r2 _, r3.setJoint _ _, m2, by rw [r5]⟩
          | some ci =>
            rw [hci] at hall
            cases hi : l.inertials with
            | nil => rw [hi] at hall; simp at hall
            | cons a' rest => exact ⟨rfl, r1, r2, r3, r4, r5⟩
      cases k.type with
      | none => exact ⟨rfl, r1, r2, r3, r4, r5⟩
      | some ty =>
        cases ty with
        | fixed =>
          dsimp only
          obtain ⟨m1, m2, m3, m4⟩ := squashJoint_sim r1 r3 e2
          exact ⟨m1, m3, by rw [m2]; exact bones_squash r2 _, m4, m2, r5⟩
        | continuous => exact hchild .continuous (by decide)
        | revolute => exact hchild .revolute (by decide)
        | prismatic => exact hchild .prismatic (by decide)
        | floating => exact hchild .floating (by decide)
        | planar => exact hchild .planar (by decide)
  have := traverse_sim (s := (x, [])) (a := (view x, [])) hs n ⟨h, rfl, hd, rfl, rfl⟩
  rcases this with h | ⟨r, s, a, h1, h2, h3⟩
  · left; exact h
  · right; exact ⟨r, s, a, h1, h2, h3.1, h3.2.2.2⟩

/-! ### `removeSubTreeIfJoint` -/

/-- A predicate on elements as a predicate on joints. Helper of the proofs. Not in /repo:
specification. -/
def predOf (x : XTree) (pred : Node → Bool) (j : UJoint) : Bool := (x.joint j.name).elim false pred

theorem list_sim {x : XTree} (h : InStep x) (pred : Node → Bool) (n : ℕ) :
    Agree (fun s (a : ℤ × List String) => s.1 = x ∧ s.2 = a)
      (traverseJoints (listVisitor pred) n (x, 0, []))
      (Urdf.traverseJoints (Urdf.listVisitor (predOf x pred)) (view x) n (0, [])) := by
  have hs : Simulates (listVisitor pred) (Urdf.listVisitor (predOf x pred)) (view x)
      (fun s (a : ℤ × List String) => s.1 = x ∧ s.2 = a) := by
    refine ⟨?_, ?_, ?_⟩
    · rintro s a ⟨r1, -⟩
      rw [r1]; exact ⟨h, rfl⟩
    · rintro s a j n k ⟨r1, rfl⟩ hj e1 e2 e3 e4
      have hp : predOf x pred j = pred n := by rw [← r1]; simp [predOf, e1]
      simp only [listVisitor, Urdf.listVisitor, hp]
      exact ⟨trivial, r1, trivial⟩
    · rintro s a j n k ⟨r1, rfl⟩ hj e1 e2 e3 e4
      have hp : predOf x pred j = pred n := by rw [← r1]; simp [predOf, e1]
      simp only [listVisitor, Urdf.listVisitor, hp]
      split_ifs <;> exact ⟨rfl, r1, rfl⟩
  exact traverse_sim (s := (x, 0, [])) (a := (0, [])) hs n ⟨rfl, rfl⟩

theorem rmLeaves_sim (names : List String) {x : XTree} (h : InStep x) :
    (rmLeaves names x).1 = (Urdf.rmLeaves names (view x)).1 ∧
    view (rmLeaves names x).2 = (Urdf.rmLeaves names (view x)).2 ∧ InStep (rmLeaves names x).2 := by
  induction names generalizing x with
  | nil => exact ⟨rfl, rfl, h⟩
  | cons name rest ih =>
    unfold rmLeaves Urdf.rmLeaves
    obtain ⟨t1, t2, t3⟩ := rmLeafJoint_sim h name
    rcases hX : x.rmLeafJoint name with ⟨r, x1⟩
    rcases hT : (view x).rmLeafJoint name with ⟨r', t1'⟩
    rw [hX, hT] at t1 t2
    rw [hX] at t3
    simp only at t1 t2 t3
    subst t1 t2
    cases r with
    | throws => exact ⟨rfl, rfl, t3⟩
    | ub => exact ⟨rfl, rfl, t3⟩
    | ok u => exact ih t3

theorem removeSubTree_sim {x : XTree} (h : InStep x) (pred : Node → Bool) (n : ℕ) :
    (removeSubTreeIfJoint n pred x = none ∧
      Urdf.removeSubTreeIfJoint n (predOf x pred) (view x) = none) ∨
    ∃ r x', removeSubTreeIfJoint n pred x = some (r, x') ∧
      Urdf.removeSubTreeIfJoint n (predOf x pred) (view x) = some (r, view x') ∧ InStep x' := by
  unfold removeSubTreeIfJoint Urdf.removeSubTreeIfJoint
  rcases list_sim h pred n with ⟨h1, h2⟩ | ⟨r, s, a, h1, h2, h3, rfl⟩
  · rw [h1, h2]; left; exact ⟨rfl, rfl⟩
  · rw [h1, h2]
    right
    cases r with
    | throws => exact ⟨_, x, rfl, rfl, h⟩
    | ub => exact ⟨_, x, rfl, rfl, h⟩
    | ok u =>
      dsimp only
      obtain ⟨t1, t2, t3⟩ := rmLeaves_sim s.2.2.reverse h
      refine ⟨_, _, rfl, ?_, t3⟩
      rw [t1, t2]

end AlMath.UrdfXml
