import Verif.Lemmas.UrdfXmlSim

/-!
Simulation of the functions that move frames and flip joints.
-/

namespace AlMath.UrdfXml

open AlMath.Urdf AlMath.Spec AlMath.Spec.UrdfXml

/-! ### Elements -/

theorem IsJoint.congr_origin {n n' : Node} {j : UJoint} (h : IsJoint n j)
    (e : ∀ k, k ≠ "origin" → n'.find k = n.find k) : IsJoint n' { j with origin := n'.origin } where
  name := by
    rw [← h.name]; simp only [Node.name, Node.getStr, Node.get_congr (e "<xmlattr>" (by decide))]
  parent := by
    rw [← h.parent]; simp only [Node.parentLink, Node.getStr, Node.get_congr (e "parent" (by decide))]
  child := by
    rw [← h.child]; simp only [Node.childLink, Node.getStr, Node.get_congr (e "child" (by decide))]
  type := by
    rw [← h.type]; simp only [Node.type, Node.getStr, Node.get_congr (e "<xmlattr>" (by decide))]
  origin := rfl
  axis := by
    rw [← h.axis]; simp only [Node.axis, Node.getVec, Node.get_congr (e "axis" (by decide))]
  mimic := by rw [← h.mimic]; simp only [Node.mimic, e "mimic" (by decide)]

theorem premul_isJoint [Printer] {pose : UPose} {noprune : Bool} {n : Node} {j : UJoint}
    (h : IsJoint n j) :
    (∀ n', premul pose.inverse pose noprune n = .ok n' →
      Urdf.premul pose.inverse pose noprune j.origin = .ok n'.origin ∧
      IsJoint n' { j with origin := n'.origin }) ∧
    (premul pose.inverse pose noprune n = .throws →
      Urdf.premul pose.inverse pose noprune j.origin = .throws) ∧
    (premul pose.inverse pose noprune n = .ub →
      Urdf.premul pose.inverse pose noprune j.origin = .ub) := by
  have e := premul_eq pose.inverse pose noprune n
  rw [h.origin] at e
  refine ⟨fun n' hn => ⟨?_, ?_⟩, fun hn => ?_, fun hn => ?_⟩
  · rw [← e, hn]; rfl
  · exact h.congr_origin fun k hk => find_of_filter hk (premul_find hn).2
  · rw [← e, hn]; rfl
  · rw [← e, hn]; rfl

theorem premul_inertial [Printer] (pose : UPose) (n : Node) :
    (premul pose.inverse pose false n).map Node.toInertial = transportInertial pose n.toInertial := by
  have e := premul_eq pose.inverse pose false n
  unfold transportInertial
  have h0 : n.toInertial.origin = n.origin := rfl
  rw [h0, ← e]
  cases hp : premul pose.inverse pose false n with
  | throws => rfl
  | ub => rfl
  | ok n' =>
    have hf := premul_find hp
    simp only [Res.map, Node.toInertial, Res.ok.injEq, UInertial.mk.injEq, true_and]
    have hm : ∀ p, n'.getNum ("mass" :: p) = n.getNum ("mass" :: p) := fun p => by
      simp only [Node.getNum, Node.get_congr (find_of_filter (by decide : "mass" ≠ "origin") hf.2)]
    have hi : ∀ p, n'.getNum ("inertia" :: p) = n.getNum ("inertia" :: p) := fun p => by
      simp only [Node.getNum, Node.get_congr (find_of_filter (by decide : "inertia" ≠ "origin") hf.2)]
    simp only [Node.inertialData, hm, hi]

/-! ### Loops -/

theorem editEls_sim (f : String → Node → Res Node) (g : UJoint → Res UJoint) (P : UJoint → Prop)
    [DecidablePred P] (hP : ∀ j, ¬ P j → g j = .ok j)
    (hok : ∀ n j n', IsJoint n j → P j → f j.name n = .ok n' →
      ∃ j', g j = .ok j' ∧ IsJoint n' j' ∧ j'.name = j.name)
    (hth : ∀ n j, IsJoint n j → P j → f j.name n = .throws → g j = .throws)
    (hub : ∀ n j, IsJoint n j → P j → f j.name n = .ub → g j = .ub)
    (sel : String → Bool) (names : List String) (hnd : names.Nodup) (x : XTree) (h : InStep x)
    (hsub : ∀ nm ∈ names, nm ∈ x.joints)
    (hsel : ∀ nm ∈ names, ∀ j, (jointsOf x.doc).find? (fun j => j.name = nm) = some j →
      sel nm = decide (P j)) :
    InStep { x with doc := (editEls "joint" f (names.filter sel) x.doc).2 } ∧
    linksOf (editEls "joint" f (names.filter sel) x.doc).2 = linksOf x.doc ∧
    (editEls "joint" f (names.filter sel) x.doc).1 =
      (mapUpTo g (names.filterMap fun nm => (jointsOf x.doc).find? fun j => j.name = nm)).1 ∧
    (names.filterMap fun nm => (jointsOf (editEls "joint" f (names.filter sel) x.doc).2).find?
        fun j => j.name = nm) =
      (mapUpTo g (names.filterMap fun nm => (jointsOf x.doc).find? fun j => j.name = nm)).2 ∧
    ∀ nm, nm ∉ names → (jointsOf (editEls "joint" f (names.filter sel) x.doc).2).find?
      (fun j => j.name = nm) = (jointsOf x.doc).find? fun j => j.name = nm := by
  induction names generalizing x with
  | nil => exact ⟨h, rfl, rfl, rfl, fun _ _ => rfl⟩
  | cons nm names ih =>
    rw [List.nodup_cons] at hnd
    obtain ⟨j, hj, hjn, hjm⟩ := h.mem_find (hsub nm (by simp))
    have hs := hsel nm (by simp) j hj
    rw [List.filterMap_cons, hj]
    simp only
    by_cases hp : P j
    · rw [List.filter_cons_of_pos (by rw [hs]; simpa using hp)]
      obtain ⟨n, -, hn, hnj⟩ := h.joint_of_mem ((h.view_mem j).2 hjm)
      rw [hjn] at hn
      simp only [editEls, hn]
      cases hf : f nm n with
      | throws =>
        have hg : g j = .throws := hth n j hnj hp (by rw [hjn]; exact hf)
        simp only [mapUpTo, hg]
        exact ⟨h, trivial, trivial, by rw [List.filterMap_cons, hj], fun _ _ => trivial⟩
      | ub =>
        have hg : g j = .ub := hub n j hnj hp (by rw [hjn]; exact hf)
        simp only [mapUpTo, hg]
        exact ⟨h, trivial, trivial, by rw [List.filterMap_cons, hj], fun _ _ => trivial⟩
      | ok n' =>
        obtain ⟨j', hg, hn', hjn'⟩ := hok n j n' hnj hp (by rw [hjn]; exact hf)
        have hnm : j'.name = nm := hjn'.trans hjn
        obtain ⟨s1, s2⟩ := view_setJoint h hn'
        obtain ⟨t1, t2, t3⟩ := setEl_joint h.doc hn' rfl
        rw [hnm] at s1 s2 t1 t2 t3
        have hg' : ∀ k : UJoint, (if k.name = nm then j' else k).name = k.name := by
          intro k
          split_ifs with hk
          · rw [hnm, hk]
          · rfl
        have hfind : ∀ a, a ≠ nm → (jointsOf (setEl "joint" nm n' x.doc)).find? (fun j => j.name = a) =
            (jointsOf x.doc).find? fun j => j.name = a := by
          intro a ha
          rw [t3, find_map_name _ _ hg']
          cases hfa : (jointsOf x.doc).find? fun j => j.name = a with
          | none => rfl
          | some k =>
            have : k.name = a := by simpa using List.find?_some hfa
            rw [Option.map_some, if_neg (by rw [this]; exact ha)]
        obtain ⟨i1, i2, i3, i4, i5⟩ := ih hnd.2 { x with doc := setEl "joint" nm n' x.doc } s1
          (fun a ha => hsub a (by simp [ha]))
          (fun a ha k hk => hsel a (by simp [ha]) k (by
            rw [← hfind a (by rintro rfl; exact hnd.1 ha)]; exact hk))
        have hV : (names.filterMap fun a => (jointsOf (setEl "joint" nm n' x.doc)).find?
            fun j => j.name = a) = names.filterMap fun a => (jointsOf x.doc).find? fun j => j.name = a := by
          refine List.filterMap_congr fun a ha => hfind a ?_
          rintro rfl
          exact hnd.1 ha
        simp only at i1 i2 i3 i4 i5
        rw [hV] at i3 i4
        simp only [mapUpTo, hg]
        refine ⟨i1, i2.trans t2, i3, ?_, ?_⟩
        · rw [List.filterMap_cons, i5 nm hnd.1, i4]
          have : (jointsOf (setEl "joint" nm n' x.doc)).find? (fun j => j.name = nm) = some j' := by
            rw [t3, find_map_name _ _ hg', hj, Option.map_some, if_pos hjn]
          rw [this]
        · intro a ha
          rw [List.mem_cons, not_or] at ha
          rw [i5 a ha.2, hfind a ha.1]
    · rw [List.filter_cons_of_neg (by rw [hs]; simpa using hp)]
      obtain ⟨i1, i2, i3, i4, i5⟩ := ih hnd.2 x h (fun a ha => hsub a (by simp [ha]))
        (fun a ha k hk => hsel a (by simp [ha]) k hk)
      simp only [mapUpTo, hP j hp]
      refine ⟨i1, i2, i3, ?_, ?_⟩
      · rw [List.filterMap_cons, i5 nm hnd.1, hj, i4]
      · intro a ha
        rw [List.mem_cons, not_or] at ha
        exact i5 a ha.2

theorem editAll_sim {β : Type} (key : String) (f : Node → Res Node) (g : β → Res β) (rd : Node → β)
    (hf : ∀ n, (f n).map rd = g (rd n)) (ch : Nodes) :
    (editAll key f ch).1 = (mapUpTo g (((ch.filter fun c => c.1 = key).map Prod.snd).map rd)).1 ∧
    (((editAll key f ch).2.filter fun c => c.1 = key).map Prod.snd).map rd =
      (mapUpTo g (((ch.filter fun c => c.1 = key).map Prod.snd).map rd)).2 ∧
    ∀ k, k ≠ key → (editAll key f ch).2.filter (fun c => c.1 = k) = ch.filter fun c => c.1 = k := by
  unfold editAll
  induction ch with
  | nil => exact ⟨rfl, rfl, fun _ _ => rfl⟩
  | cons c ch ih =>
    obtain ⟨i1, i2, i3⟩ := ih
    by_cases hc : c.1 = key
    · rw [List.filter_cons_of_pos (by simpa using hc)]
      simp only [List.map_cons, mapUpTo, if_pos hc]
      have hfc := hf c.2
      cases h : f c.2 with
      | throws =>
        rw [h] at hfc
        rw [← hfc]
        refine ⟨rfl, ?_, fun _ _ => rfl⟩
        change (((c :: ch).filter fun c => c.1 = key).map Prod.snd).map rd = _
        rw [List.filter_cons_of_pos (by simpa using hc)]; rfl
      | ub =>
        rw [h] at hfc
        rw [← hfc]
        refine ⟨rfl, ?_, fun _ _ => rfl⟩
        change (((c :: ch).filter fun c => c.1 = key).map Prod.snd).map rd = _
        rw [List.filter_cons_of_pos (by simpa using hc)]; rfl
      | ok n' =>
        rw [h] at hfc
        rw [← hfc]
        simp only [Res.map_ok]
        refine ⟨i1, ?_, ?_⟩
        · rw [List.filter_cons_of_pos (by simpa using hc)]
          simp only [List.map_cons, i2]
        · intro k hk
          rw [List.filter_cons_of_neg (by simpa [hc] using Ne.symm hk),
            List.filter_cons_of_neg (by simpa [hc] using Ne.symm hk), i3 k hk]
    · rw [List.filter_cons_of_neg (by simpa using hc)]
      simp only [mapUpTo, if_neg hc]
      refine ⟨i1, ?_, ?_⟩
      · rw [List.filter_cons_of_neg (by simpa using hc)]
        exact i2
      · intro k hk
        simp only [List.filter_cons, i3 k hk]

/-! ### Moving the frame of the root link -/

theorem find_of_all {n n' : Node} {k : String}
    (h : (n'.children.filter fun c => c.1 = k) = n.children.filter fun c => c.1 = k) :
    n'.find k = n.find k := by
  rw [← Node.head_all, ← Node.head_all]
  simp only [Node.all, h]

theorem transportLink_sim [Printer] (pose : UPose) {n : Node} {l : ULink} (h : IsLink n l) :
    (transportLink pose n).1 = (Urdf.transportLink pose l).1 ∧
    IsLink (transportLink pose n).2 (Urdf.transportLink pose l).2 ∧
    (Urdf.transportLink pose l).2.name = l.name := by
  have hname : ∀ c : Nodes, c.filter (fun c => c.1 = "<xmlattr>") =
      n.children.filter (fun c => c.1 = "<xmlattr>") → (Node.mk n.text c).name = some l.name := by
    intro c hc
    rw [← h.name]
    simp only [Node.name, Node.getStr]
    rw [Node.get_congr (find_of_all (n := n) (n' := Node.mk n.text c) hc)]
  unfold transportLink
  simp only [editKeys]
  obtain ⟨a1, a2, a3⟩ := editAll_sim "inertial" (premul pose.inverse pose false)
    (transportInertial pose) Node.toInertial (premul_inertial pose) n.children
  have b := editAll_sim "visual" (premul pose.inverse pose false)
    (Urdf.premul pose.inverse pose false) Node.origin (premul_eq pose.inverse pose false)
  have c := editAll_sim "collision" (premul pose.inverse pose false)
    (Urdf.premul pose.inverse pose false) Node.origin (premul_eq pose.inverse pose false)
  rw [show ((n.children.filter fun c => c.1 = "inertial").map Prod.snd).map Node.toInertial =
    l.inertials from h.inertials] at a1 a2
  unfold Urdf.transportLink
  rcases hA : editAll "inertial" (premul pose.inverse pose false) n.children with ⟨r1, c1⟩
  rw [hA] at a1 a2 a3
  rcases hA' : mapUpTo (transportInertial pose) l.inertials with ⟨r1', is⟩
  rw [hA'] at a1 a2
  simp only at a1 a2 a3
  subst a1
  have hv : ((c1.filter fun c => c.1 = "visual").map Prod.snd).map Node.origin = l.visuals := by
    rw [a3 "visual" (by decide)]; exact h.visuals
  have hc : ((c1.filter fun c => c.1 = "collision").map Prod.snd).map Node.origin = l.collisions := by
    rw [a3 "collision" (by decide)]; exact h.collisions
  cases r1 with
  | throws => exact ⟨rfl, ⟨hname c1 (a3 _ (by decide)), a2, hv, hc⟩, rfl⟩
  | ub => exact ⟨rfl, ⟨hname c1 (a3 _ (by decide)), a2, hv, hc⟩, rfl⟩
  | ok u =>
    obtain ⟨b1, b2, b3⟩ := b c1
    rw [hv] at b1 b2
    dsimp only
    rcases hB : editAll "visual" (premul pose.inverse pose false) c1 with ⟨r2, c2⟩
    rw [hB] at b1 b2 b3
    rcases hB' : mapUpTo (Urdf.premul pose.inverse pose false) l.visuals with ⟨r2', vs⟩
    rw [hB'] at b1 b2
    simp only at b1 b2 b3
    subst b1
    have hi2 : ((c2.filter fun c => c.1 = "inertial").map Prod.snd).map Node.toInertial = is := by
      rw [b3 "inertial" (by decide)]; exact a2
    have hc2 : ((c2.filter fun c => c.1 = "collision").map Prod.snd).map Node.origin = l.collisions := by
      rw [b3 "collision" (by decide)]; exact hc
    have hx2 : c2.filter (fun c => c.1 = "<xmlattr>") =
        n.children.filter (fun c => c.1 = "<xmlattr>") := by
      rw [b3 _ (by decide), a3 _ (by decide)]
    cases r2 with
    | throws => exact ⟨rfl, ⟨hname c2 hx2, hi2, b2, hc2⟩, rfl⟩
    | ub => exact ⟨rfl, ⟨hname c2 hx2, hi2, b2, hc2⟩, rfl⟩
    | ok u =>
      obtain ⟨d1, d2, d3⟩ := c c2
      rw [hc2] at d1 d2
      dsimp only
      rcases hC : editAll "collision" (premul pose.inverse pose false) c2 with ⟨r3, c3⟩
      rw [hC] at d1 d2 d3
      rcases hC' : mapUpTo (Urdf.premul pose.inverse pose false) l.collisions with ⟨r3', cs⟩
      rw [hC'] at d1 d2
      simp only at d1 d2 d3
      subst d1
      have hi3 : ((c3.filter fun c => c.1 = "inertial").map Prod.snd).map Node.toInertial = is := by
        rw [d3 "inertial" (by decide)]; exact hi2
      have hv3 : ((c3.filter fun c => c.1 = "visual").map Prod.snd).map Node.origin = vs := by
        rw [d3 "visual" (by decide)]; exact b2
      have hx3 : c3.filter (fun c => c.1 = "<xmlattr>") =
          n.children.filter (fun c => c.1 = "<xmlattr>") := by
        rw [d3 _ (by decide), hx2]
      cases r3 with
      | throws => exact ⟨rfl, ⟨hname c3 hx3, hi3, hv3, d2⟩, rfl⟩
      | ub => exact ⟨rfl, ⟨hname c3 hx3, hi3, hv3, d2⟩, rfl⟩
      | ok u => exact ⟨rfl, ⟨hname c3 hx3, hi3, hv3, d2⟩, rfl⟩

theorem transport_sim [Printer] {x : XTree} (h : InStep x) (pose : UPose) (noprune : String → Bool) :
    (x.transportRootLinkFrame pose noprune).1 =
      ((view x).transportRootLinkFrame pose fun j => noprune j.name).1 ∧
    view (x.transportRootLinkFrame pose noprune).2 =
      ((view x).transportRootLinkFrame pose fun j => noprune j.name).2 ∧
    InStep (x.transportRootLinkFrame pose noprune).2 ∧
    (x.transportRootLinkFrame pose noprune).2.joints = x.joints ∧
    (x.transportRootLinkFrame pose noprune).2.root = x.root := by
  have key := editEls_sim (fun j => premul pose.inverse pose (noprune j))
    (transportJoint pose x.root fun j => noprune j.name) (fun j => j.parent = x.root)
    (fun j hj => by simp only [transportJoint, if_neg hj])
    (fun n j n' hn hj hf => by
      obtain ⟨e1, e2⟩ := (premul_isJoint (pose := pose) (noprune := noprune j.name) hn).1 n' hf
      refine ⟨{ j with origin := n'.origin }, ?_, e2, rfl⟩
      simp only [transportJoint, if_pos hj, e1, Res.map])
    (fun n j hn hj hf => by
      have e := (premul_isJoint (pose := pose) (noprune := noprune j.name) hn).2.1 hf
      simp only [transportJoint, if_pos hj, e, Res.map])
    (fun n j hn hj hf => by
      have e := (premul_isJoint (pose := pose) (noprune := noprune j.name) hn).2.2 hf
      simp only [transportJoint, if_pos hj, e, Res.map])
    (fun j => decide ((x.joint j).bind Node.parentLink = some x.root))
    x.joints h.joints_nodup x h (fun _ h => h)
    (fun nm hnm j hj => by
      rcases h.joint_cases nm with ⟨h1, -⟩ | ⟨n, k, -, h1, -, h2, -, -, h3⟩
      · exact absurd hnm h1
      · rw [h.view_findJoint, hj] at h3
        cases h3
        simp [h1, h2.parent])
  obtain ⟨k1, k2, k3, k4, -⟩ := key
  unfold XTree.transportRootLinkFrame Tree.transportRootLinkFrame
  have hcj : x.childJoints x.root =
      x.joints.filter fun j => decide ((x.joint j).bind Node.parentLink = some x.root) := rfl
  rw [← hcj] at k1 k2 k3 k4
  have hroot : (view x).root = x.root := rfl
  rw [hroot]
  rcases hE : editEls "joint" (fun j => premul pose.inverse pose (noprune j)) (x.childJoints x.root) x.doc
    with ⟨r, doc⟩
  rw [hE] at k1 k2 k3 k4
  rcases hM : mapUpTo (transportJoint pose x.root fun j => noprune j.name) (view x).joints with ⟨r', js⟩
  have hM' : mapUpTo (transportJoint pose x.root fun j => noprune j.name)
    (x.joints.filterMap fun nm => (jointsOf x.doc).find? fun j => j.name = nm) = (r', js) := hM
  rw [hM'] at k3 k4
  simp only at k1 k2 k3 k4
  subst k3
  have hview : view { x with doc := doc } = { view x with joints := js } := by
    simp only [view, k2, k4]
  cases r with
  | throws => exact ⟨rfl, hview, k1, rfl, rfl⟩
  | ub => exact ⟨rfl, hview, k1, rfl, rfl⟩
  | ok u =>
    dsimp only
    have hfl : (view { x with doc := doc }).findLink x.root = (view x).findLink x.root := by
      rw [hview]; rfl
    rcases k1.link_cases x.root with ⟨l1, l2⟩ | ⟨m, l, l1, l2, l3, l4⟩
    · rw [show findEl "link" x.root doc = none from l1, show (view x).findLink x.root = none by
        rw [← hfl]; exact l2]
      exact ⟨rfl, hview, k1, rfl, rfl⟩
    · rw [show findEl "link" x.root doc = some m from l1, show (view x).findLink x.root = some l by
        rw [← hfl]; exact l4]
      dsimp only
      obtain ⟨t1, t2, t3⟩ := transportLink_sim pose l2
      obtain ⟨v1, v2⟩ := view_setLink k1 t2
      rw [t3, l3] at v1 v2
      refine ⟨t1, ?_, v1, rfl, rfl⟩
      dsimp only at v2 ⊢
      rw [v2, hview]
      rfl

end AlMath.UrdfXml
