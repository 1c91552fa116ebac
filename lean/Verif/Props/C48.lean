import Verif.Props.C49
import Verif.Props.C59
import Verif.Lemmas.Rodrigues

/-!
C48: change of the root link of a kinematic tree.
-/

namespace AlMath

open Matrix Urdf

namespace Spec

/-- The transform denoted by an `origin` element, whose absence is the identity. Meaningless when
the element is malformed. Not in /repo: specification. -/
noncomputable def originMat (o : Option OriginElem) : Mat4 :=
  match UPose.fromPtree o with
  | .ok p => poseMat p
  | _ => 0

/-- The unit vector along the joint axis, the x axis by default. Not in /repo: specification. -/
noncomputable def unitAxis (j : UJoint) : Vec3 :=
  (√(lenSq (j.axis.getD ![1, 0, 0])))⁻¹ • (j.axis.getD ![1, 0, 0] : Vec3)

/-- The value of a joint: a number for the joints with one degree of freedom, a transform for the
others. Not in /repo: specification. -/
structure JointValue where
  scalar : ℝ
  transform : Mat4

/-- The motion of a joint. Not in /repo: specification. -/
noncomputable def motion (j : UJoint) (v : JointValue) : Mat4 :=
  match j.type with
  | some .revolute => homog (rodrigues (unitAxis j) v.scalar) 0
  | some .continuous => homog (rodrigues (unitAxis j) v.scalar) 0
  | some .prismatic => homog 1 (v.scalar • unitAxis j)
  | some .fixed => 1
  | _ => v.transform

/-- `X` gives the pose of the frame of each link, in some common frame, when the joints have the
values `q`. Not in /repo: specification. -/
def Placement (t : Tree) (q : String → JointValue) (X : String → Mat4) : Prop :=
  ∀ j ∈ t.joints, X j.child = X j.parent * originMat j.origin * motion j (q j.name)

/-- The joints from link `a` down to link `b`. Not in /repo: specification. -/
def IsPath (t : Tree) : String → List UJoint → String → Prop
  | a, [], b => a = b
  | a, j :: js, b => j ∈ t.joints ∧ j.parent = a ∧ IsPath t j.child js b

/-- The types of joint that can be flipped. Not in /repo: specification. -/
def OneDof (ty : Option JType) : Prop :=
  ty = some .revolute ∨ ty = some .continuous ∨ ty = some .prismatic ∨ ty = some .fixed

/-- The pose `p` is the one of an element attached to the link `l`. Not in /repo:
specification. -/
def Attached (t : Tree) (l : String) (o : Option OriginElem) : Prop :=
  (∃ k ∈ t.joints, k.parent = l ∧ k.origin = o) ∨
  ∃ x ∈ t.links, x.name = l ∧
    ((∃ i ∈ x.inertials, i.origin = o) ∨ o ∈ x.visuals ∨ o ∈ x.collisions)

/-- The origins attached to the parent link of `j` are well formed, and none of them, nor the
absent origin, denotes the same transform as the origin of `j` with other numbers. Not in /repo:
specification. -/
def Clean (t : Tree) (j : UJoint) : Prop :=
  ∀ o, Attached t j.parent o ∨ o = none → ∃ p, UPose.fromPtree o = .ok p ∧
    (poseMat p = originMat j.origin → UPose.fromPtree j.origin = .ok p)

/-- The move of the frame of link `l`: a link of the path gets the frame of the joint that leads
to the new root. Not in /repo: specification. -/
noncomputable def frameMove (js : List UJoint) (l : String) : Mat4 :=
  match js.find? (fun j => j.parent = l) with
  | some j => originMat j.origin
  | none => 1

/-- Flipped joint: parent and child exchanged, opposite axis (the
axis of a fixed joint does not matter). Not in /repo: specification. -/
def Flipped (j j' : UJoint) : Prop :=
  j'.parent = j.child ∧ j'.child = j.parent ∧
    (j.type ≠ some .fixed → unitAxis j' = -unitAxis j)

/-- The link after its frame moved by `F`: the same elements, with the same places in space. Not
in /repo: specification. -/
structure MovedLink (F : Mat4) (l l' : ULink) : Prop where
  name : l'.name = l.name
  data : l'.inertials.map UInertial.data = l.inertials.map UInertial.data
  inertials : l'.inertials.map (fun i => F * originMat i.origin) =
    l.inertials.map (fun i => originMat i.origin)
  visuals : l'.visuals.map (fun o => F * originMat o) = l.visuals.map originMat
  collisions : l'.collisions.map (fun o => F * originMat o) = l.collisions.map originMat

end Spec

open Spec

/-! ### Poses -/

theorem originMat_none : originMat none = 1 := by
  simp only [originMat, UPose.fromPtree]
  exact poseMat_zero

theorem originMat_ok {o : Option OriginElem} {p : UPose} (h : UPose.fromPtree o = .ok p) :
    originMat o = poseMat p := by
  rw [originMat, h]

theorem fromPtree_empty : UPose.fromPtree (some ⟨.absent, .absent⟩) = .ok UPose.zero := rfl

theorem toPtree_none {p : UPose} (h : p.toPtree = none) : p = UPose.zero := by
  unfold UPose.toPtree at h
  split_ifs at h with h0
  rw [isZero_iff, isZero_iff] at h0
  ext1
  · rw [h0.1, UPose.zero, vec_zero]
  · rw [h0.2, UPose.zero, vec_zero]

theorem toPtree_some {p : UPose} {e : OriginElem} (h : p.toPtree = some e) :
    UPose.fromPtree (some e) = .ok p := by
  unfold UPose.toPtree at h
  split_ifs at h with h0 h1 h2 h2 <;> rw [← Option.some.inj h] <;>
    simp only [UPose.fromPtree, UPose.fromElem, getPoseChild, Res.bind_ok, Res.ok.injEq] <;>
    (ext : 1 <;> simp_all [isZero_iff, vec_zero])

/-- The new origin of an element attached to the root. Helper of the proofs. Not in /repo:
specification. -/
noncomputable def newOrigin (pose : UPose) (b : Bool) (o : Option OriginElem) :
    Option OriginElem :=
  match premul pose.inverse pose b o with
  | .ok o' => o'
  | _ => none

theorem premul_ok {pose p : UPose} (b : Bool) {o : Option OriginElem}
    (ho : UPose.fromPtree o = .ok p) (hal : poseMat p = poseMat pose → p = pose) :
    premul pose.inverse pose b o = .ok (newOrigin pose b o) ∧
    ∃ p', UPose.fromPtree (newOrigin pose b o) = .ok p' ∧ poseMat pose * poseMat p' = poseMat p ∧
      (p = pose → p' = UPose.zero) := by
  by_cases h : p = pose
  · subst h
    have e : premul p.inverse p b o = .ok (if b then some ⟨.absent, .absent⟩ else none) := by
      simp only [premul, ho, Res.bind_ok, ne_eq, not_true_eq_false, if_false, if_true]
    have e' : newOrigin p b o = if b then some ⟨.absent, .absent⟩ else none := by
      rw [newOrigin, e]
    refine ⟨by rw [e, e'], UPose.zero, ?_, ?_, fun _ => rfl⟩
    · rw [e']; cases b <;> rfl
    · rw [poseMat_zero, Matrix.mul_one]
  · cases hq : (pose.inverse.mul p).toPtree with
    | none =>
      exfalso
      have h0 := toPtree_none hq
      have h1 := congrArg poseMat h0
      rw [C59_mul, poseMat_zero] at h1
      apply h (hal _)
      calc poseMat p = poseMat pose * poseMat pose.inverse * poseMat p := by
            rw [(C59_inverse pose).2.2, Matrix.one_mul]
        _ = poseMat pose := by rw [Matrix.mul_assoc, h1, Matrix.mul_one]
    | some e =>
      have e1 : premul pose.inverse pose b o = .ok (some e) := by
        simp only [premul, ho, Res.bind_ok, ne_eq, not_true_eq_false, if_false, h, hq]
      have e2 : newOrigin pose b o = some e := by rw [newOrigin, e1]
      refine ⟨by rw [e1, e2], pose.inverse.mul p, ?_, ?_, fun h' => absurd h' h⟩
      · rw [e2]; exact toPtree_some hq
      · rw [C59_mul, ← Matrix.mul_assoc, (C59_inverse pose).2.2, Matrix.one_mul]

theorem mapUpTo_ok {α : Type} {f : α → Res α} {g : α → α} {l : List α}
    (h : ∀ a ∈ l, f a = .ok (g a)) : mapUpTo f l = (.ok (), l.map g) := by
  induction l with
  | nil => rfl
  | cons a l ih =>
    rw [mapUpTo, h a (by simp)]
    simp only
    rw [ih fun x hx => h x (by simp [hx])]
    rfl

/-! ### Motions -/

theorem unitAxis_flip {j j' : UJoint} (h : flipAxis j = .ok j')
    (hf : j.type ≠ some .fixed) (hg : j.type ≠ some .floating) : unitAxis j' = -unitAxis j := by
  have key : (j'.axis.getD ![1, 0, 0] : Vec3) = -(j.axis.getD ![1, 0, 0] : Vec3) := by
    revert h
    unfold flipAxis
    rcases hty : j.type with _ | ty
    · simp
    · have hv : ∀ v : Vec3, (![-v 0, -v 1, -v 2] : Vec3) = -v := by
        intro v; ext i; fin_cases i <;> rfl
      cases ty <;> simp only [hty, ne_eq, not_true_eq_false] at hf hg ⊢
      all_goals
        intro h
        rw [hv] at h
        split_ifs at h with h1
        · rw [← Res.ok.inj h]
          obtain ⟨ha, hb, hc⟩ := h1
          ext i
          fin_cases i
          exacts [ha.symm, hb.symm, hc.symm]
        · rw [← Res.ok.inj h]; rfl
  unfold unitAxis
  rw [key]
  have : lenSq (-(j.axis.getD ![1, 0, 0] : Vec3)) = lenSq (j.axis.getD ![1, 0, 0]) := by
    simp [lenSq]
  rw [this, smul_neg]

theorem lenSq_unitAxis (j : UJoint) : lenSq (unitAxis j) = 1 ∨ unitAxis j = 0 := by
  unfold unitAxis
  set v : Vec3 := j.axis.getD ![1, 0, 0]
  have h0 : 0 ≤ lenSq v := by
    simp only [lenSq, dotProduct, Fin.sum_univ_three]
    nlinarith [mul_self_nonneg (v 0), mul_self_nonneg (v 1), mul_self_nonneg (v 2)]
  rcases h0.lt_or_eq with h | h
  · left
    have hs := Real.sqrt_pos.2 h
    have hq := Real.mul_self_sqrt h0
    have : lenSq ((√(lenSq v))⁻¹ • v) = (√(lenSq v))⁻¹ * (√(lenSq v))⁻¹ * lenSq v := by
      simp [lenSq, mul_assoc]
    rw [this]
    field_simp
    nlinarith
  · right
    rw [← h, Real.sqrt_zero, _root_.inv_zero, zero_smul]

theorem rodrigues_neg_axis (n : Vec3) (a : ℝ) : rodrigues (-n) a = rodrigues n (-a) := by
  have : skew (-n) = -skew n := by
    ext i j; fin_cases i <;> fin_cases j <;> simp [skew]
  unfold rodrigues
  rw [this, Real.sin_neg, Real.cos_neg]
  simp

theorem rodrigues_cancel {n : Vec3} (hn : lenSq n = 1 ∨ n = 0) (a : ℝ) :
    rodrigues n a * rodrigues (-n) a = 1 := by
  rcases hn with hn | rfl
  · rw [rodrigues_neg_axis, rodrigues_add hn, add_neg_cancel, rodrigues_zero]
  · rw [neg_zero]
    have : skew (0 : Vec3) = 0 := by
      ext i j; fin_cases i <;> fin_cases j <;> simp [skew]
    simp [rodrigues, this]

theorem motion_flip {j j' : UJoint} (hty : OneDof j.type) (htype : j'.type = j.type)
    (hax : j.type ≠ some .fixed → unitAxis j' = -unitAxis j) (v : JointValue) :
    motion j v * motion j' v = 1 := by
  rcases hty with h | h | h | h
  · rw [motion, motion, htype, h]
    simp only
    rw [hax (by rw [h]; simp), homog_mul, rodrigues_cancel (lenSq_unitAxis j), Matrix.mulVec_zero,
      add_zero, homog_one]
  · rw [motion, motion, htype, h]
    simp only
    rw [hax (by rw [h]; simp), homog_mul, rodrigues_cancel (lenSq_unitAxis j), Matrix.mulVec_zero,
      add_zero, homog_one]
  · rw [motion, motion, htype, h]
    simp only
    rw [hax (by rw [h]; simp), homog_mul, Matrix.one_mul, Matrix.one_mulVec, smul_neg,
      neg_add_cancel, homog_one]
  · rw [motion, motion, htype, h]
    simp only
    rw [Matrix.one_mul]

/-! ### One joint -/

/-- The new origin of an element attached to the root, when the frame of the root moves to the
joint with the first origin. Helper of the proofs. Not in /repo: specification. -/
noncomputable def moveOrigin (jo : Option OriginElem) (b : Bool) (o : Option OriginElem) :
    Option OriginElem :=
  match jo with
  | none => o
  | some e =>
    match UPose.fromElem e with
    | .ok pose => newOrigin pose b o
    | _ => o

theorem moveOrigin_spec {jo : Option OriginElem} {pose : UPose} (hjo : UPose.fromPtree jo = .ok pose)
    (b : Bool) {o : Option OriginElem} {p : UPose} (ho : UPose.fromPtree o = .ok p)
    (hal : poseMat p = originMat jo → UPose.fromPtree jo = .ok p) :
    ∃ p', UPose.fromPtree (moveOrigin jo b o) = .ok p' ∧ poseMat pose * poseMat p' = poseMat p ∧
      (p = pose → p' = UPose.zero) := by
  cases jo with
  | none =>
    have e : pose = UPose.zero := (Res.ok.inj hjo).symm
    subst e
    exact ⟨p, ho, by rw [poseMat_zero, Matrix.one_mul], fun h => h⟩
  | some e =>
    have he : UPose.fromElem e = .ok pose := hjo
    simp only [moveOrigin, he]
    refine (premul_ok b ho fun h => ?_).2
    have := hal (by rw [h, originMat_ok hjo])
    rw [hjo] at this
    exact (Res.ok.inj this).symm

/-- A joint after the frame of the root moved. Helper of the proofs. Not in /repo:
specification. -/
noncomputable def moveJoint (t : Tree) (j : UJoint) (b : Bool) (k : UJoint) : UJoint :=
  if k.parent = t.root then
    { k with origin := moveOrigin j.origin (b && (k.name = j.name : Bool)) k.origin }
  else k

/-- A link after the frame of the root moved. Helper of the proofs. Not in /repo:
specification. -/
noncomputable def moveLink (t : Tree) (j : UJoint) (x : ULink) : ULink :=
  if x.name = t.root then
    ⟨x.name, x.inertials.map fun i => { i with origin := moveOrigin j.origin false i.origin },
      x.visuals.map (moveOrigin j.origin false), x.collisions.map (moveOrigin j.origin false)⟩
  else x

theorem moveJoint_none {t : Tree} {j : UJoint} (hj : j.origin = none) (b : Bool) (k : UJoint) :
    moveJoint t j b k = k := by
  unfold moveJoint
  rw [hj]
  simp only [moveOrigin]
  split_ifs <;> rfl

theorem moveLink_none {t : Tree} {j : UJoint} (hj : j.origin = none) (x : ULink) :
    moveLink t j x = x := by
  unfold moveLink
  rw [hj]
  have h1 : moveOrigin none false = id := by funext o; rfl
  rw [h1]
  have h2 : (fun i : UInertial => { i with origin := id i.origin }) = id := by funext i; rfl
  rw [h2]
  simp only [List.map_id]
  split_ifs <;> rfl

theorem transportToJoint_ok {t : Tree} (hc : Consistent' t) {j : UJoint} (hj : j ∈ t.joints)
    (hp : j.parent = t.root) (hcl : Clean t j) (b : Bool) :
    t.transportToJoint j b =
      (.ok (), ⟨t.links.map (moveLink t j), t.joints.map (moveJoint t j b), t.root⟩) := by
  unfold Tree.transportToJoint
  cases ho : j.origin with
  | none =>
    simp only
    have e1 : moveLink t j = id := by funext x; exact moveLink_none ho x
    have e2 : moveJoint t j b = id := by funext x; exact moveJoint_none ho b x
    rw [e1, e2, List.map_id, List.map_id]
  | some e =>
    obtain ⟨pose, hpose, -⟩ := hcl j.origin (Or.inl (Or.inl ⟨j, hj, rfl, rfl⟩))
    have he : UPose.fromElem e = .ok pose := by rw [ho] at hpose; exact hpose
    simp only [he]
    have hmv : ∀ b o, moveOrigin j.origin b o = newOrigin pose b o := by
      intro b o; rw [ho]; simp only [moveOrigin, he]
    have hpre : ∀ b o, Attached t t.root o →
        premul pose.inverse pose b o = .ok (moveOrigin j.origin b o) := by
      intro b o ha
      obtain ⟨p, h1, h2⟩ := hcl o (Or.inl (by rw [hp]; exact ha))
      rw [hmv]
      refine (premul_ok b h1 fun h => ?_).1
      have := h2 (by rw [h, originMat_ok hpose])
      rw [hpose] at this
      exact (Res.ok.inj this).symm
    unfold Tree.transportRootLinkFrame
    have hjs : mapUpTo (transportJoint pose t.root fun x => b && (x.name = j.name : Bool)) t.joints =
        (.ok (), t.joints.map (moveJoint t j b)) := by
      apply mapUpTo_ok
      intro k hk
      unfold transportJoint moveJoint
      split_ifs with h
      · rw [hpre _ _ (Or.inl ⟨k, hk, h, rfl⟩)]
        rfl
      · rfl
    rw [hjs]
    simp only
    obtain ⟨l, hl, hln, hfl⟩ := find_child hc hc.root_mem
    rw [hfl]
    simp only
    have hlink : transportLink pose l = (.ok (), moveLink t j l) := by
      unfold transportLink
      rw [mapUpTo_ok (g := fun i => { i with origin := moveOrigin j.origin false i.origin })]
      · simp only
        rw [mapUpTo_ok (g := moveOrigin j.origin false)]
        · simp only
          rw [mapUpTo_ok (g := moveOrigin j.origin false)]
          · simp only [moveLink, hln, if_true]
          · intro o ho'
            exact hpre _ _ (Or.inr ⟨l, hl, hln, Or.inr (Or.inr ho')⟩)
        · intro o ho'
          exact hpre _ _ (Or.inr ⟨l, hl, hln, Or.inr (Or.inl ho')⟩)
      · intro i hi
        unfold transportInertial
        rw [hpre _ _ (Or.inr ⟨l, hl, hln, Or.inl ⟨i, hi, rfl⟩⟩)]
        rfl
    rw [hlink]
    simp only
    congr 2
    apply List.map_congr_left
    intro x hx
    split_ifs with h
    · rw [List.inj_on_of_nodup_map hc.links_nodup hx hl (h.trans hln.symm)]
    · rw [moveLink, if_neg h]

theorem flipInIndex_ok {t : Tree} {j j2 : UJoint} (hj : j ∈ t.joints)
    (hnd : (t.joints.map UJoint.name).Nodup)
    (hp : ∀ k ∈ t.joints, k.child ≠ j.parent) (hf : flipAxis (flipLinks j) = .ok j2) :
    ∃ js, t.flipInIndex j.name = (.ok (), ⟨t.links, js, j.child⟩) ∧
      js.Perm (t.joints.map fun k => if k.name = j.name then j2 else k) := by
  have hsplit : ∃ pre post, t.joints.span (fun k => k.name ≠ j.name) = (pre, j :: post) ∧
      t.joints = pre ++ j :: post := by
    rw [List.span_eq_takeWhile_dropWhile]
    have hap := List.takeWhile_append_dropWhile (p := fun k : UJoint => decide (k.name ≠ j.name))
      (l := t.joints)
    cases hd : t.joints.dropWhile (fun k => decide (k.name ≠ j.name)) with
    | nil =>
      rw [hd, List.append_nil] at hap
      have := List.all_eq_true.1 (List.all_takeWhile (l := t.joints)
        (p := fun k : UJoint => decide (k.name ≠ j.name))) j (by rw [hap]; exact hj)
      simp at this
    | cons k post =>
      have hk : k.name = j.name := by
        have := List.head?_dropWhile_not (fun k : UJoint => decide (k.name ≠ j.name)) t.joints
        rw [hd] at this
        simpa using this
      rw [hd] at hap
      have hkj : k = j := List.inj_on_of_nodup_map hnd (by rw [← hap]; simp) hj hk
      subst hkj
      exact ⟨_, post, rfl, hap.symm⟩
  obtain ⟨pre, post, hs, he⟩ := hsplit
  have hno : (flipLinks j).child ∉ (pre ++ post).map UJoint.child := by
    intro h
    obtain ⟨k, hk, e⟩ := List.mem_map.1 h
    refine hp k ?_ e
    rw [he]
    rcases List.mem_append.1 hk with h | h
    · simp [h]
    · simp [h]
  refine ⟨replaceInIndex pre post j2, ?_, ?_⟩
  · unfold Tree.flipInIndex
    rw [hs]
    simp only
    rw [if_neg hno, hf]
  · have hmap : t.joints.map (fun k => if k.name = j.name then j2 else k) = pre ++ j2 :: post := by
      rw [he] at hnd ⊢
      rw [List.map_append, List.map_cons, List.nodup_append] at hnd
      have hpre : pre.map (fun k => if k.name = j.name then j2 else k) = pre := by
        conv_rhs => rw [← List.map_id pre]
        apply List.map_congr_left
        intro k hk
        rw [if_neg]
        · rfl
        · exact hnd.2.2 _ (List.mem_map_of_mem hk) _ (by simp)
      have hpost : post.map (fun k => if k.name = j.name then j2 else k) = post := by
        conv_rhs => rw [← List.map_id post]
        apply List.map_congr_left
        intro k hk
        rw [if_neg]
        · rfl
        · intro e
          exact (List.nodup_cons.1 hnd.2.1).1 (List.mem_map.2 ⟨k, hk, e⟩)
      rw [List.map_append, List.map_cons, hpre, hpost, if_pos rfl]
    rw [hmap]
    unfold replaceInIndex
    split_ifs
    · exact List.Perm.refl _
    · refine (insertUpper_perm _ _).trans ?_
      exact List.perm_middle.symm

/-- What flipping the root joint `j` does. Helper of the proofs. Not in /repo:
specification. -/
structure FlipStep (t t' : Tree) (j : UJoint) (h : UJoint → UJoint) (hl : ULink → ULink) :
    Prop where
  joints : t'.joints.Perm (t.joints.map h)
  links : t'.links = t.links.map hl
  root : t'.root = j.child
  same : ∀ k ∈ t.joints, (h k).name = k.name ∧ (h k).type = k.type ∧ (h k).mimic = k.mimic
  flipped : Flipped j (h j)
  zero : UPose.fromPtree (h j).origin = .ok UPose.zero
  links_same : ∀ k ∈ t.joints, k ≠ j →
    (h k).parent = k.parent ∧ (h k).child = k.child ∧ (h k).axis = k.axis
  origin : ∀ k ∈ t.joints, k ≠ j → k.parent = t.root →
    originMat j.origin * originMat (h k).origin = originMat k.origin
  other : ∀ k ∈ t.joints, k.parent ≠ t.root → h k = k
  moved : ∀ x ∈ t.links, x.name = t.root → MovedLink (originMat j.origin) x (hl x)
  unmoved : ∀ x ∈ t.links, x.name ≠ t.root → hl x = x

theorem flip_step {t : Tree} (hc : Consistent' t) {j : UJoint} (hj : j ∈ t.joints)
    (hp : j.parent = t.root) (hty : OneDof j.type) (hcl : Clean t j) (b : Bool) :
    ∃ t' h hl, t.flipRootLinkJoint j.name b = (.ok (), t') ∧ FlipStep t t' j h hl := by
  have hfind : t.findJoint j.name = some j := by
    cases hf : t.findJoint j.name with
    | none => exact absurd rfl (findJoint_none.1 hf j hj)
    | some k =>
      obtain ⟨h1, h2⟩ := findJoint_some hf
      rw [List.inj_on_of_nodup_map hc.joints_nodup h1 hj h2]
  obtain ⟨pose, hpose, -⟩ := hcl j.origin (Or.inl (Or.inl ⟨j, hj, rfl, rfl⟩))
  have hmv : ∀ b o, Attached t t.root o → ∃ p p', UPose.fromPtree o = .ok p ∧
      UPose.fromPtree (moveOrigin j.origin b o) = .ok p' ∧
      poseMat pose * poseMat p' = poseMat p ∧ (p = pose → p' = UPose.zero) := by
    intro b o ha
    obtain ⟨p, h1, h2⟩ := hcl o (Or.inl (by rw [hp]; exact ha))
    obtain ⟨p', h3⟩ := moveOrigin_spec hpose b h1 h2
    exact ⟨p, p', h1, h3⟩
  have hmat : ∀ b o, Attached t t.root o →
      originMat j.origin * originMat (moveOrigin j.origin b o) = originMat o := by
    intro b o ha
    obtain ⟨p, p', h1, h2, h3, -⟩ := hmv b o ha
    rw [originMat_ok hpose, originMat_ok h1, originMat_ok h2, h3]
  set t1 : Tree := ⟨t.links.map (moveLink t j), t.joints.map (moveJoint t j b), t.root⟩ with ht1
  have hmn : ∀ k, (moveJoint t j b k).name = k.name ∧ (moveJoint t j b k).type = k.type ∧
      (moveJoint t j b k).mimic = k.mimic ∧ (moveJoint t j b k).parent = k.parent ∧
      (moveJoint t j b k).child = k.child ∧ (moveJoint t j b k).axis = k.axis := by
    intro k
    unfold moveJoint
    split_ifs <;> simp
  set j1 := moveJoint t j b j with hj1
  have hj1t : OneDof (flipLinks j1).type := by
    change OneDof j1.type
    rw [hj1, (hmn j).2.1]; exact hty
  have hflip : ∃ j2, flipAxis (flipLinks j1) = .ok j2 ∧ j2.name = j1.name ∧ j2.type = j1.type ∧
      j2.mimic = j1.mimic ∧ j2.parent = j1.child ∧ j2.child = j1.parent ∧
      j2.origin = j1.origin := by
    unfold flipAxis
    rcases hj1t with e | e | e | e <;> rw [e] <;> simp only
    · split_ifs <;> exact ⟨_, rfl, rfl, e.symm, rfl, rfl, rfl, rfl⟩
    · split_ifs <;> exact ⟨_, rfl, rfl, e.symm, rfl, rfl, rfl, rfl⟩
    · split_ifs <;> exact ⟨_, rfl, rfl, e.symm, rfl, rfl, rfl, rfl⟩
    · exact ⟨_, rfl, rfl, rfl, rfl, rfl, rfl, rfl⟩
  obtain ⟨j2, hf2, hn2, ht2, hm2, hp2, hc2, ho2⟩ := hflip
  have hnd1 : (t1.joints.map UJoint.name).Nodup := by
    simp only [ht1, List.map_map]
    have : (UJoint.name ∘ moveJoint t j b) = UJoint.name := by funext k; exact (hmn k).1
    rw [this]
    exact hc.joints_nodup
  have hpar1 : ∀ k ∈ t1.joints, k.child ≠ j1.parent := by
    intro k hk
    obtain ⟨k0, hk0, rfl⟩ := List.mem_map.1 hk
    rw [(hmn k0).2.2.2.2.1, hj1, (hmn j).2.2.2.1, hp]
    exact hc.root_not_child k0 hk0
  obtain ⟨js, hjs, hperm⟩ := flipInIndex_ok (t := t1) (List.mem_map_of_mem hj) hnd1 hpar1 hf2
  have hjn : j1.name = j.name := (hmn j).1
  refine ⟨⟨t1.links, js, j1.child⟩,
    fun k => if k.name = j.name then j2 else moveJoint t j b k, moveLink t j, ?_, ?_⟩
  · unfold Tree.flipRootLinkJoint
    rw [hfind]
    simp only [hp, ne_eq, not_true_eq_false, if_false]
    rw [transportToJoint_ok hc hj hp hcl b]
    simp only
    rw [← ht1, ← hjn]
    exact hjs
  · have hne : ∀ k ∈ t.joints, k ≠ j → k.name ≠ j.name := by
      intro k hk hkj e
      exact hkj (List.inj_on_of_nodup_map hc.joints_nodup hk hj e)
    have hax : j.type ≠ some .fixed → unitAxis j2 = -unitAxis j := by
      intro hfx
      have hA : unitAxis (flipLinks j1) = unitAxis j := by
        unfold unitAxis
        change (√(lenSq (j1.axis.getD ![1, 0, 0])))⁻¹ • (j1.axis.getD ![1, 0, 0] : Vec3) = _
        rw [hj1, (hmn j).2.2.2.2.2]
      rw [← hA]
      have htj : (flipLinks j1).type = j.type := (hmn j).2.1
      refine unitAxis_flip hf2 ?_ ?_
      · rw [htj]; exact hfx
      · rw [htj]
        rcases hty with e | e | e | e <;> rw [e] <;> simp
    refine ⟨?_, rfl, (hmn j).2.2.2.2.1, ?_, ?_, ?_, ?_, ?_, ?_, ?_, ?_⟩
    · refine hperm.trans (List.Perm.of_eq ?_)
      simp only [ht1, List.map_map]
      apply List.map_congr_left
      intro k hk
      simp only [Function.comp, (hmn k).1, (hmn j).1]
    · intro k hk
      split_ifs with e
      · rw [List.inj_on_of_nodup_map hc.joints_nodup hk hj e]
        exact ⟨hn2.trans (hmn j).1, ht2.trans (hmn j).2.1, hm2.trans (hmn j).2.2.1⟩
      · exact ⟨(hmn k).1, (hmn k).2.1, (hmn k).2.2.1⟩
    · simp only [if_true]
      exact ⟨hp2.trans (hmn j).2.2.2.2.1, hc2.trans (hmn j).2.2.2.1, hax⟩
    · simp only [if_true]
      rw [ho2, hj1, moveJoint, if_pos hp]
      simp only
      obtain ⟨p, p', h1, h2, h3, h4⟩ := hmv (b && decide True) j.origin
        (Or.inl ⟨j, hj, hp, rfl⟩)
      rw [hpose] at h1
      rw [h2, h4 (Res.ok.inj h1).symm]
    · intro k hk hkj
      simp only [if_neg (hne k hk hkj)]
      exact ⟨(hmn k).2.2.2.1, (hmn k).2.2.2.2.1, (hmn k).2.2.2.2.2⟩
    · intro k hk hkj hkp
      simp only [if_neg (hne k hk hkj)]
      rw [moveJoint, if_pos hkp]
      exact hmat _ _ (Or.inl ⟨k, hk, hkp, rfl⟩)
    · intro k hk hkp
      have hkj : k ≠ j := fun e => hkp (by rw [e, hp])
      simp only [if_neg (hne k hk hkj)]
      rw [moveJoint, if_neg hkp]
    · intro x hx hxn
      rw [moveLink, if_pos hxn]
      refine ⟨rfl, ?_, ?_, ?_, ?_⟩
      · simp only [List.map_map]; rfl
      · simp only [List.map_map]
        apply List.map_congr_left
        intro i hi
        exact hmat _ _ (Or.inr ⟨x, hx, hxn, Or.inl ⟨i, hi, rfl⟩⟩)
      · simp only [List.map_map]
        apply List.map_congr_left
        intro i hi
        exact hmat _ _ (Or.inr ⟨x, hx, hxn, Or.inr (Or.inl hi)⟩)
      · simp only [List.map_map]
        apply List.map_congr_left
        intro i hi
        exact hmat _ _ (Or.inr ⟨x, hx, hxn, Or.inr (Or.inr hi)⟩)
    · intro x hx hxn
      rw [moveLink, if_neg hxn]

namespace FlipStep

variable {t t' : Tree} {j : UJoint} {h : UJoint → UJoint} {hl : ULink → ULink}

theorem mem (s : FlipStep t t' j h hl) (k : UJoint) : k ∈ t'.joints ↔ ∃ k0 ∈ t.joints, h k0 = k := by
  rw [s.joints.mem_iff, List.mem_map]

theorem link_name (s : FlipStep t t' j h hl) : ∀ x ∈ t.links, (hl x).name = x.name := by
  intro x hx
  by_cases hn : x.name = t.root
  · exact (s.moved x hx hn).name
  · rw [s.unmoved x hx hn]

theorem link_names (s : FlipStep t t' j h hl) : t'.links.map ULink.name = t.links.map ULink.name := by
  rw [s.links, List.map_map]
  exact List.map_congr_left s.link_name

theorem link_iff (s : FlipStep t t' j h hl) (n : String) :
    (∃ x ∈ t'.links, x.name = n) ↔ ∃ x ∈ t.links, x.name = n := by
  rw [← List.mem_map, ← List.mem_map, s.link_names]

theorem names (s : FlipStep t t' j h hl) :
    (t'.joints.map UJoint.name).Perm (t.joints.map UJoint.name) := by
  refine (s.joints.map _).trans (List.Perm.of_eq ?_)
  rw [List.map_map]
  exact List.map_congr_left fun k hk => (s.same k hk).1

theorem consistent (s : FlipStep t t' j h hl) (hc : Consistent' t) (hj : j ∈ t.joints)
    (hp : j.parent = t.root) : Consistent' t' := by
  classical
  have hchild : ∀ k ∈ t.joints, (h k).child = if k = j then t.root else k.child := by
    intro k hk
    split_ifs with e
    · rw [e, s.flipped.2.1, hp]
    · exact (s.links_same k hk e).2.1
  have hne : j.child ≠ t.root := hc.root_not_child j hj
  refine ⟨?_, s.names.nodup_iff.2 hc.joints_nodup, ?_, ?_, ?_, ?_, ?_, ?_⟩
  · rw [s.link_names]; exact hc.links_nodup
  · intro k hk
    obtain ⟨k0, hk0, rfl⟩ := (s.mem k).1 hk
    rw [s.link_iff]
    by_cases e : k0 = j
    · rw [e, s.flipped.1]; exact hc.children j hj
    · rw [(s.links_same k0 hk0 e).1]; exact hc.parents k0 hk0
  · intro k hk
    obtain ⟨k0, hk0, rfl⟩ := (s.mem k).1 hk
    rw [s.link_iff, hchild k0 hk0]
    split_ifs
    · exact hc.root_mem
    · exact hc.children k0 hk0
  · rw [(s.joints.map _).nodup_iff, List.map_map]
    refine List.Nodup.map_on ?_ (List.Nodup.of_map _ hc.joints_nodup)
    intro a ha b hb e
    simp only [Function.comp, hchild a ha, hchild b hb] at e
    split_ifs at e with h1 h2 h2
    · rw [h1, h2]
    · exact absurd e.symm (hc.root_not_child b hb)
    · exact absurd e (hc.root_not_child a ha)
    · exact List.inj_on_of_nodup_map hc.one_parent ha hb e
  · rw [s.link_iff, s.root]; exact hc.children j hj
  · intro k hk
    obtain ⟨k0, hk0, rfl⟩ := (s.mem k).1 hk
    rw [s.root, hchild k0 hk0]
    split_ifs with e
    · exact hne.symm
    · intro e'
      exact e (List.inj_on_of_nodup_map hc.one_parent hk0 hj e')
  · intro x hx hxn
    obtain ⟨x0, hx0, e0⟩ := (s.link_iff x.name).1 ⟨x, hx, rfl⟩
    by_cases hr : x.name = t.root
    · exact ⟨h j, (s.mem _).2 ⟨j, hj, rfl⟩, by rw [hchild j hj, if_pos rfl, hr]⟩
    · obtain ⟨k, hk, e⟩ := hc.others_child x0 hx0 (by rw [e0]; exact hr)
      refine ⟨h k, (s.mem _).2 ⟨k, hk, rfl⟩, ?_⟩
      rw [hchild k hk, if_neg, e, e0]
      rintro rfl
      exact hxn (by rw [s.root, e, e0])

theorem reach (s : FlipStep t t' j h hl) (hj : j ∈ t.joints) (hp : j.parent = t.root) {l : String}
    (hr : Reach t l) : Reach t' l := by
  unfold Reach at hr ⊢
  induction hr using Relation.ReflTransGen.head_induction_on with
  | refl =>
    refine .single ⟨h j, (s.mem _).2 ⟨j, hj, rfl⟩, ?_, ?_⟩
    · rw [s.flipped.2.1, hp]
    · rw [s.flipped.1, s.root]
  | head hstep _ ih =>
    obtain ⟨k, hk, e1, e2⟩ := hstep
    by_cases e : k = j
    · rw [s.root, ← e, e1]
    · refine .head ⟨h k, (s.mem _).2 ⟨k, hk, rfl⟩, ?_, ?_⟩ ih
      · rw [(s.links_same k hk e).2.1, e1]
      · rw [(s.links_same k hk e).1, e2]

theorem placement (s : FlipStep t t' j h hl) (hc : Consistent' t) (hj : j ∈ t.joints)
    (hp : j.parent = t.root) (hty : OneDof j.type) {pose : UPose}
    (ho : UPose.fromPtree j.origin = .ok pose) (q : String → JointValue) (X : String → Mat4) :
    Placement t q X ↔
      Placement t' q (fun l => X l * if l = t.root then originMat j.origin else 1) := by
  have hO : originMat j.origin * poseMat pose.inverse = 1 := by
    rw [originMat_ok ho]; exact (C59_inverse pose).2.2
  have hM : ∀ v, motion j v * motion (h j) v = 1 :=
    motion_flip hty (s.same j hj).2.1 s.flipped.2.2
  have hM' : ∀ v, motion (h j) v * motion j v = 1 := fun v => mul_eq_one_comm.1 (hM v)
  have hz : originMat (h j).origin = 1 := by rw [originMat_ok s.zero, poseMat_zero]
  have key : ∀ k ∈ t.joints, (X k.child = X k.parent * originMat k.origin * motion k (q k.name) ↔
      (X (h k).child * if (h k).child = t.root then originMat j.origin else 1) =
        (X (h k).parent * if (h k).parent = t.root then originMat j.origin else 1) *
          originMat (h k).origin * motion (h k) (q (h k).name)) := by
    intro k hk
    have hkc := hc.root_not_child k hk
    by_cases e : k = j
    · subst e
      rw [s.flipped.1, s.flipped.2.1, hp, if_pos rfl, if_neg hkc, hz, Matrix.mul_one, Matrix.mul_one,
        (s.same k hk).1]
      constructor
      · intro hX
        rw [hX, Matrix.mul_assoc _ (motion k _), hM, Matrix.mul_one]
      · intro hX
        rw [hX, Matrix.mul_assoc, hM', Matrix.mul_one]
    · obtain ⟨e1, e2, e3⟩ := s.links_same k hk e
      have hmot : motion (h k) (q (h k).name) = motion k (q k.name) := by
        obtain ⟨s1, s2, -⟩ := s.same k hk
        unfold motion unitAxis
        rw [s1, s2, e3]
      rw [e1, e2, hmot, if_neg hkc, Matrix.mul_one]
      by_cases hkp : k.parent = t.root
      · rw [if_pos hkp, Matrix.mul_assoc (X k.parent) (originMat j.origin), s.origin k hk e hkp]
      · rw [if_neg hkp, Matrix.mul_one, s.other k hk hkp]
  constructor
  · intro hX k' hk'
    obtain ⟨k, hk, rfl⟩ := (s.mem k').1 hk'
    exact (key k hk).1 (hX k hk)
  · intro hX k hk
    exact (key k hk).2 (hX (h k) ((s.mem _).2 ⟨k, hk, rfl⟩))

/-- The joints below are not changed. -/
theorem rest (s : FlipStep t t' j h hl) (hc : Consistent' t) (hj : j ∈ t.joints)
    {k : UJoint} (hk : k ∈ t.joints) (hkp : k.parent ≠ t.root) (hcl : Clean t k) :
    k ∈ t'.joints ∧ Clean t' k := by
  refine ⟨(s.mem _).2 ⟨k, hk, s.other k hk hkp⟩, ?_⟩
  rintro o (ho | rfl)
  · rcases ho with ⟨i, hi, hip, rfl⟩ | ⟨x, hx, hxn, hxo⟩
    · obtain ⟨i0, hi0, rfl⟩ := (s.mem i).1 hi
      by_cases e : i0 = j
      · obtain ⟨p, h1, h2⟩ := hcl none (Or.inr rfl)
        refine ⟨p, ?_, h2⟩
        rw [e, s.zero]
        exact h1
      · have e1 := (s.links_same i0 hi0 e).1
        have hne : i0.parent ≠ t.root := by rw [← e1, hip]; exact hkp
        have e2 := s.other i0 hi0 hne
        exact hcl _ (Or.inl (Or.inl ⟨i0, hi0, by rw [← e1, hip], by rw [e2]⟩))
    · rw [s.links, List.mem_map] at hx
      obtain ⟨x0, hx0, rfl⟩ := hx
      rw [s.link_name x0 hx0] at hxn
      rw [s.unmoved x0 hx0 (by rw [hxn]; exact hkp)] at hxo
      exact hcl o (Or.inl (Or.inr ⟨x0, hx0, hxn, hxo⟩))
  · exact hcl none (Or.inr rfl)

end FlipStep

/-! ### The whole path -/

theorem path_parent {t : Tree} {a b : String} {js : List UJoint} (h : IsPath t a js b) :
    ∀ k ∈ js, k ∈ t.joints ∧ (k.parent = a ∨ ∃ i ∈ t.joints, i.child = k.parent) := by
  induction js generalizing a with
  | nil => simp
  | cons j js ih =>
    obtain ⟨hj, hp, hr⟩ := h
    intro k hk
    rcases List.mem_cons.1 hk with rfl | hk
    · exact ⟨hj, Or.inl hp⟩
    · obtain ⟨h1, h2⟩ := ih hr k hk
      refine ⟨h1, Or.inr ?_⟩
      rcases h2 with h2 | h2
      · exact ⟨j, hj, h2.symm⟩
      · exact h2

theorem path_tail {t : Tree} (hc : Consistent' t) {j : UJoint} {js : List UJoint} {l : String}
    (h : IsPath t t.root (j :: js) l) : ∀ k ∈ js, k.parent ≠ t.root := by
  obtain ⟨hj, hp, hr⟩ := h
  intro k hk e
  rcases (path_parent hr k hk).2 with h2 | ⟨i, hi, h2⟩
  · exact hc.root_not_child j hj (h2.symm.trans e)
  · exact hc.root_not_child i hi (h2.trans e)

theorem path_mono {t t' : Tree} {a b : String} {js : List UJoint} (h : IsPath t a js b)
    (hm : ∀ k ∈ js, k ∈ t'.joints) : IsPath t' a js b := by
  induction js generalizing a with
  | nil => exact h
  | cons j js ih =>
    obtain ⟨hj, hp, hr⟩ := h
    exact ⟨hm j (by simp), hp, ih hr fun k hk => hm k (by simp [hk])⟩

theorem movedLink_refl (l : ULink) : MovedLink 1 l l := by
  refine ⟨rfl, rfl, ?_, ?_, ?_⟩ <;> simp

theorem map_mul_comp {α : Type} {F G : Mat4} {f f' f'' : α → Mat4} {l l' l'' : List α}
    (h1 : l'.map (fun x => F * f' x) = l.map f) (h2 : l''.map (fun x => G * f'' x) = l'.map f') :
    l''.map (fun x => F * G * f'' x) = l.map f := by
  have := congrArg (List.map fun M => F * M) h2
  simp only [List.map_map] at this
  rw [← h1]
  simp only [Matrix.mul_assoc]
  exact this

theorem movedLink_trans {F G : Mat4} {l l' l'' : ULink} (h1 : MovedLink F l l')
    (h2 : MovedLink G l' l'') : MovedLink (F * G) l l'' :=
  ⟨h2.name.trans h1.name, h2.data.trans h1.data, map_mul_comp h1.inertials h2.inertials,
    map_mul_comp h1.visuals h2.visuals, map_mul_comp h1.collisions h2.collisions⟩

/-- What `define_as_root_link` does along the path `js`. Not in /repo: specification. -/
structure Spec.Rerooted (t t' : Tree) (js : List UJoint) (h : UJoint → UJoint)
    (hl : ULink → ULink) : Prop where
  joints : t'.joints.Perm (t.joints.map h)
  links : t'.links = t.links.map hl
  same : ∀ k ∈ t.joints, (h k).name = k.name ∧ (h k).type = k.type ∧ (h k).mimic = k.mimic
  flipped : ∀ k ∈ js, Flipped k (h k)
  not_flipped : ∀ k ∈ t.joints, k ∉ js →
    (h k).parent = k.parent ∧ (h k).child = k.child ∧ (h k).axis = k.axis
  far : ∀ k ∈ t.joints, k.parent ∉ js.map UJoint.parent → h k = k
  moved : ∀ x ∈ t.links, MovedLink (frameMove js x.name) x (hl x)
  unmoved : ∀ x ∈ t.links, x.name ∉ js.map UJoint.parent → hl x = x
  placement : ∀ q X, Placement t q X ↔ Placement t' q (fun l => X l * frameMove js l)

theorem frameMove_cons {t : Tree} (hc : Consistent' t) {j : UJoint} {js : List UJoint} {b : String}
    (h : IsPath t t.root (j :: js) b) (l : String) :
    frameMove (j :: js) l = (if l = t.root then originMat j.origin else 1) * frameMove js l := by
  have hp : j.parent = t.root := h.2.1
  have htail := path_tail hc h
  by_cases e : l = t.root
  · have h2 : frameMove js l = 1 := by
      unfold frameMove
      have : js.find? (fun j => decide (j.parent = l)) = none := by
        rw [List.find?_eq_none]
        intro k hk
        simp only [decide_eq_true_eq]
        rw [e]
        exact htail k hk
      rw [this]
    rw [if_pos e, h2, Matrix.mul_one]
    simp only [frameMove, List.find?_cons, hp, e, decide_true]
  · have : ¬ t.root = l := fun h => e h.symm
    rw [if_neg e, Matrix.one_mul]
    simp only [frameMove, List.find?_cons, hp, this, decide_false]

theorem reroot {l : String} (js : List UJoint) : ∀ t : Tree, Consistent' t → IsPath t t.root js l →
    (∀ j ∈ js, OneDof j.type ∧ Clean t j) →
    ∃ t' h hl, Tree.flipAll (js.map UJoint.name) t = (.ok (), t') ∧ t'.root = l ∧ Consistent' t' ∧
      (∀ x, Reach t x → Reach t' x) ∧ Rerooted t t' js h hl := by
  induction js with
  | nil =>
    intro t hc hpath _
    refine ⟨t, id, id, rfl, hpath, hc, fun _ h => h, ?_⟩
    refine ⟨by simp, by simp, fun _ _ => ⟨rfl, rfl, rfl⟩, by simp, fun _ _ _ => ⟨rfl, rfl, rfl⟩,
      fun _ _ _ => rfl, fun x _ => movedLink_refl x, fun _ _ _ => rfl, ?_⟩
    intro q X
    simp [frameMove]
  | cons j js ih =>
    intro t hc hpath hok
    have htail := path_tail hc hpath
    have hmem := path_parent hpath
    have hpath' := hpath
    obtain ⟨hj, hp, hr⟩ := hpath
    obtain ⟨hty, hcl⟩ := hok j (by simp)
    obtain ⟨t1, h1, hl1, he1, s⟩ := flip_step hc hj hp hty hcl (decide (js.map UJoint.name ≠ []))
    have hrest : ∀ k ∈ js, k ∈ t1.joints ∧ Clean t1 k := by
      intro k hk
      exact s.rest hc hj (hmem k (by simp [hk])).1 (htail k hk) (hok k (by simp [hk])).2
    have hkeep : ∀ k ∈ js, h1 k = k := fun k hk => s.other k (hmem k (by simp [hk])).1 (htail k hk)
    have hback : ∀ k ∈ t.joints, h1 k ∈ js → k ∈ js := by
      intro k hk hin
      have e := hkeep _ hin
      have e1 := (s.same k hk).1
      have : h1 k = k :=
        List.inj_on_of_nodup_map hc.joints_nodup (hmem _ (by simp [hin])).1 hk e1
      rw [← this]; exact hin
    have hjjs : j ∉ js := fun h => htail j h hp
    obtain ⟨pose, hpose, -⟩ := hcl j.origin (Or.inl (Or.inl ⟨j, hj, rfl, rfl⟩))
    obtain ⟨t2, h2, hl2, he2, hroot, hc2, hreach, r⟩ := ih t1 (s.consistent hc hj hp)
      (by rw [s.root]; exact path_mono hr fun k hk => (hrest k hk).1)
      (fun k hk => ⟨(hok k (by simp [hk])).1, (hrest k hk).2⟩)
    have hm1 : ∀ k ∈ t.joints, h1 k ∈ t1.joints := fun k hk => (s.mem _).2 ⟨k, hk, rfl⟩
    have hml1 : ∀ x ∈ t.links, hl1 x ∈ t1.links := by
      intro x hx; rw [s.links]; exact List.mem_map_of_mem hx
    refine ⟨t2, h2 ∘ h1, hl2 ∘ hl1, ?_, hroot, hc2, fun x hx => hreach x (s.reach hj hp hx), ?_⟩
    · rw [List.map_cons, Tree.flipAll, he1]
      exact he2
    · refine ⟨?_, ?_, ?_, ?_, ?_, ?_, ?_, ?_, ?_⟩
      · refine r.joints.trans ?_
        rw [← List.map_map]
        exact s.joints.map _
      · rw [r.links, s.links, List.map_map]
      · intro k hk
        obtain ⟨a1, a2, a3⟩ := s.same k hk
        obtain ⟨b1, b2, b3⟩ := r.same _ (hm1 k hk)
        exact ⟨b1.trans a1, b2.trans a2, b3.trans a3⟩
      · intro k hk
        rcases List.mem_cons.1 hk with rfl | hk
        · obtain ⟨a1, a2, a3⟩ := s.flipped
          obtain ⟨b1, b2, b3⟩ := r.not_flipped _ (hm1 k hj) (fun h => hjjs (hback k hj h))
          refine ⟨b1.trans a1, b2.trans a2, fun hf => ?_⟩
          rw [← a3 hf]
          simp only [Function.comp]
          unfold unitAxis
          rw [b3]
        · simp only [Function.comp, hkeep k hk]
          exact r.flipped k hk
      · intro k hk hnot
        rw [List.mem_cons, not_or] at hnot
        obtain ⟨a1, a2, a3⟩ := s.links_same k hk hnot.1
        obtain ⟨b1, b2, b3⟩ := r.not_flipped _ (hm1 k hk) (fun h => hnot.2 (hback k hk h))
        exact ⟨b1.trans a1, b2.trans a2, b3.trans a3⟩
      · intro k hk hnot
        rw [List.map_cons, List.mem_cons, not_or, hp] at hnot
        have e := s.other k hk hnot.1
        simp only [Function.comp, e]
        exact r.far k (e ▸ hm1 k hk) hnot.2
      · intro x hx
        rw [frameMove_cons hc hpath']
        refine movedLink_trans (l' := hl1 x) ?_ ?_
        · split_ifs with e
          · exact s.moved x hx e
          · rw [s.unmoved x hx e]; exact movedLink_refl x
        · have := r.moved _ (hml1 x hx)
          rw [s.link_name x hx] at this
          exact this
      · intro x hx hnot
        rw [List.map_cons, List.mem_cons, not_or, hp] at hnot
        have e := s.unmoved x hx hnot.1
        simp only [Function.comp, e]
        exact r.unmoved x (e ▸ hml1 x hx) hnot.2
      · intro q X
        rw [s.placement hc hj hp hty hpose q X, r.placement]
        simp only [frameMove_cons hc hpath', Matrix.mul_assoc]

/-! ### The path -/

theorem path_snoc {t : Tree} {a b : String} {js : List UJoint} {j : UJoint} :
    IsPath t a (js ++ [j]) b ↔ IsPath t a js j.parent ∧ j ∈ t.joints ∧ j.child = b := by
  induction js generalizing a with
  | nil =>
    simp only [List.nil_append, IsPath]
    constructor
    · rintro ⟨h1, h2, h3⟩; exact ⟨h2.symm, h1, h3⟩
    · rintro ⟨h1, h2, h3⟩; exact ⟨h2, h1.symm, h3⟩
  | cons k js ih =>
    simp only [List.cons_append, IsPath, ih, and_assoc]

theorem find_child_joint {t : Tree} (hc : Consistent' t) {j : UJoint} (hj : j ∈ t.joints) :
    t.joints.find? (fun k => k.child = j.child) = some j := by
  cases hf : t.joints.find? (fun k => decide (k.child = j.child)) with
  | none =>
    have := List.find?_eq_none.1 hf j hj
    simp at this
  | some k =>
    have h1 := List.find?_some hf
    have h2 := List.mem_of_find?_eq_some hf
    rw [List.inj_on_of_nodup_map hc.one_parent h2 hj (by simpa using h1)]

theorem pathToRoot_ok {t : Tree} (hc : Consistent' t) (js : List UJoint) : ∀ (l : String) (n : ℕ),
    IsPath t t.root js l → (∀ j ∈ js, OneDof j.type) → js.length < n →
    t.pathToRoot n l = some (.ok (js.reverse.map UJoint.name)) := by
  induction js using List.reverseRecOn with
  | nil =>
    intro l n h _ hn
    obtain ⟨m, rfl⟩ := Nat.exists_eq_succ_of_ne_zero (by simp at hn; omega : n ≠ 0)
    have h : t.root = l := h
    rw [Tree.pathToRoot, if_pos h.symm]
    rfl
  | append_singleton js j ih =>
    intro l n h hty hn
    obtain ⟨h1, hj, rfl⟩ := path_snoc.1 h
    obtain ⟨m, rfl⟩ := Nat.exists_eq_succ_of_ne_zero (by simp at hn; omega : n ≠ 0)
    have hrec := ih j.parent m h1 (fun k hk => hty k (by simp [hk])) (by simp at hn; omega)
    rw [Tree.pathToRoot, if_neg (hc.root_not_child j hj), find_child_joint hc hj]
    simp only
    rcases hty j (by simp) with e | e | e | e <;> rw [e] <;> simp only <;> rw [hrec] <;> simp [Res.map]

theorem pathToRoot_throws {t : Tree} (hc : Consistent' t) (js : List UJoint) : ∀ (l : String) (n : ℕ),
    IsPath t t.root js l → (∃ j ∈ js, ¬ OneDof j.type) → js.length < n →
    t.pathToRoot n l = some .throws := by
  induction js using List.reverseRecOn with
  | nil => intro l n _ h; simp at h
  | append_singleton js j ih =>
    intro l n h hty hn
    obtain ⟨h1, hj, rfl⟩ := path_snoc.1 h
    obtain ⟨m, rfl⟩ := Nat.exists_eq_succ_of_ne_zero (by simp at hn; omega : n ≠ 0)
    rw [Tree.pathToRoot, if_neg (hc.root_not_child j hj), find_child_joint hc hj]
    simp only
    by_cases hjt : OneDof j.type
    · obtain ⟨k, hk, hkt⟩ := hty
      have hk' : k ∈ js := by
        rcases List.mem_append.1 hk with h | h
        · exact h
        · rw [List.mem_singleton.1 h] at hkt; exact absurd hjt hkt
      have hrec := ih j.parent m h1 ⟨k, hk', hkt⟩ (by simp at hn; omega)
      rcases hjt with e | e | e | e <;> rw [e] <;> simp only <;> rw [hrec] <;> rfl
    · rcases e : j.type with _ | ty
      · rfl
      · cases ty <;> simp [OneDof, e] at hjt ⊢

theorem reach_path {t : Tree} {l : String} (h : Reach t l) : ∃ js, IsPath t t.root js l := by
  unfold Reach at h
  induction h using Relation.ReflTransGen.head_induction_on with
  | refl => exact ⟨[], rfl⟩
  | head hstep _ ih =>
    obtain ⟨j, hj, rfl, rfl⟩ := hstep
    obtain ⟨js, hjs⟩ := ih
    exact ⟨js ++ [j], path_snoc.2 ⟨hjs, hj, rfl⟩⟩

/-! ### C48 -/

/-- When the joints from the root down to the link `l` all have one degree of freedom or none and
the origins attached to the links passed are well formed and not ambiguous, `define_as_root_link`
terminates with `l` as root. The tree stays consistent and connected; the joints, their names,
types and mimic references and the links are the same; exactly the joints of the path are flipped;
what is not attached to a link of the path is unchanged; every element of a link keeps its place
in space; and the placements of the links are the same for all joint values, up to the move of the
frames of the links of the path to the joints that lead to the new root. What is missing: without
the hypothesis on origins see `C48_not_atomic` and `C48_ambiguous_undefined`, and for links apart
from the root `C48_diverges`. -/
theorem C48_reroot_partial (t : Tree) (hc : Consistent' t) (l : String) (js : List UJoint)
    (hpath : IsPath t t.root js l) (hok : ∀ j ∈ js, OneDof j.type ∧ Clean t j) :
    ∃ n0 t' h hl, (∀ n ≥ n0, t.defineAsRootLink n l = some (.ok (), t')) ∧ t'.root = l ∧
      Consistent' t' ∧ (Connected t → Connected t') ∧ Rerooted t t' js h hl := by
  obtain ⟨t', h, hl, he, hr, hc', hre, r⟩ := reroot js t hc hpath hok
  refine ⟨js.length + 1, t', h, hl, ?_, hr, hc', ?_, r⟩
  · intro n hn
    unfold Tree.defineAsRootLink
    rw [pathToRoot_ok hc js l n hpath (fun j hj => (hok j hj).1) (by omega)]
    simp only
    rw [← List.map_reverse, List.reverse_reverse, he]
  · intro hcon x hx
    rw [r.links, List.mem_map] at hx
    obtain ⟨x0, hx0, rfl⟩ := hx
    rw [(r.moved x0 hx0).name]
    exact hre _ (hcon x0 hx0)

/-- An arm with a revolute and a prismatic joint. Helper of the proofs. Not in /repo:
specification. -/
def armTree : Tree where
  links := [⟨"r", [], [none], []⟩, ⟨"a", [], [], [none]⟩, ⟨"b", [], [], []⟩]
  joints := [⟨"j2", some .prismatic, "a", "b", none, none, none⟩,
    ⟨"j1", some .revolute, "r", "a", some ⟨.val ![1, 0, 0], .absent⟩, some ![0, 0, 1], none⟩]
  root := "r"

theorem armTree_consistent : Consistent' armTree := by
  refine ⟨?_, ?_, ?_, ?_, ?_, ?_, ?_, ?_⟩ <;> simp [armTree]

/-- The hypotheses of `C48_reroot_partial` hold for the arm. -/
example : IsPath armTree "r" armTree.joints.reverse "b" ∧
    ∀ j ∈ armTree.joints.reverse, OneDof j.type ∧ Clean armTree j := by
  refine ⟨by simp [armTree, IsPath], ?_⟩
  have h1 : originMat (some ⟨.val ![1, 0, 0], .absent⟩) = homog 1 ![1, 0, 0] := by
    rw [originMat_ok (p := ⟨![1, 0, 0], ![0, 0, 0]⟩) rfl, poseMat]
    simp only
    rw [vec_zero, rpyRot_zero]
  have h2 : poseMat UPose.zero ≠ homog 1 ![1, 0, 0] := by
    intro h
    rw [poseMat_zero, ← homog_one] at h
    have := congrFun (homog_inj h).2 0
    simp at this
  intro j hj
  simp only [armTree, List.reverse_cons, List.reverse_nil, List.nil_append, List.cons_append,
    List.mem_cons, List.not_mem_nil, or_false] at hj
  rcases hj with rfl | rfl
  · refine ⟨Or.inl rfl, ?_⟩
    intro o ho
    simp only [Attached, armTree, List.mem_cons, List.not_mem_nil, or_false] at ho
    have : o = none ∨ o = some ⟨.val ![1, 0, 0], .absent⟩ := by
      rcases ho with (⟨k, rfl | rfl, h, rfl⟩ | ⟨x, rfl | rfl | rfl, h, h'⟩) | rfl <;>
        simp at * <;> simp_all
    rcases this with rfl | rfl
    · exact ⟨UPose.zero, rfl, fun h => absurd (h.trans h1) h2⟩
    · exact ⟨⟨![1, 0, 0], ![0, 0, 0]⟩, rfl, fun _ => rfl⟩
  · refine ⟨Or.inr (Or.inr (Or.inl rfl)), ?_⟩
    intro o ho
    simp only [Attached, armTree, List.mem_cons, List.not_mem_nil, or_false] at ho
    have : o = none := by
      rcases ho with (⟨k, rfl | rfl, h, rfl⟩ | ⟨x, rfl | rfl | rfl, h, h'⟩) | rfl <;>
        simp at * <;> simp_all
    subst this
    exact ⟨UPose.zero, rfl, fun _ => rfl⟩

/-- The placements of the arm, which exist. -/
example (q : String → JointValue) : ∃ X, Placement armTree q X ∧ X "r" = 1 := by
  refine ⟨fun l => if l = "r" then 1 else if l = "a" then homog 1 ![1, 0, 0] *
    homog (rodrigues (unitAxis (armTree.joints.getLast (by simp [armTree]))) (q "j1").scalar) 0 else
    homog 1 ![1, 0, 0] *
    homog (rodrigues (unitAxis (armTree.joints.getLast (by simp [armTree]))) (q "j1").scalar) 0 *
      homog 1 ((q "j2").scalar • unitAxis (armTree.joints.head (by simp [armTree]))), ?_, by simp⟩
  intro j hj
  have h1 : originMat (some ⟨.val ![1, 0, 0], .absent⟩) = homog 1 ![1, 0, 0] := by
    rw [originMat_ok (p := ⟨![1, 0, 0], ![0, 0, 0]⟩) rfl, poseMat]
    simp only
    rw [vec_zero, rpyRot_zero]
  simp only [armTree, List.mem_cons, List.not_mem_nil, or_false] at hj
  rcases hj with rfl | rfl
  · simp [originMat_none, motion, armTree]
  · simp [h1, motion, armTree]

/-- Every link below the root has such a path, and only one. -/
theorem C48_path (t : Tree) (hc : Consistent' t) (l : String) (hl : Reach t l) :
    ∃! js, IsPath t t.root js l := by
  obtain ⟨js, hjs⟩ := reach_path hl
  refine ⟨js, hjs, ?_⟩
  clear hl
  induction js using List.reverseRecOn generalizing l with
  | nil =>
    intro ks hks
    rcases List.eq_nil_or_concat ks with rfl | ⟨ks', k, rfl⟩
    · rfl
    · rw [List.concat_eq_append] at hks
      obtain ⟨-, hk, e⟩ := path_snoc.1 hks
      have h : t.root = l := hjs
      exact absurd (e.trans h.symm) (hc.root_not_child k hk)
  | append_singleton js j ih =>
    intro ks hks
    obtain ⟨h1, hj, rfl⟩ := path_snoc.1 hjs
    rcases List.eq_nil_or_concat ks with rfl | ⟨ks', k, rfl⟩
    · have h : t.root = j.child := hks
      exact absurd h.symm (hc.root_not_child j hj)
    · rw [List.concat_eq_append] at hks ⊢
      obtain ⟨h2, hk, e⟩ := path_snoc.1 hks
      have : k = j := List.inj_on_of_nodup_map hc.one_parent hk hj e
      subst this
      rw [ih k.parent h1 ks' h2]

/-- A joint with several degrees of freedom, or whose type is unknown, on the path makes
`define_as_root_link` throw; nothing changes. -/
theorem C48_refused (t : Tree) (hc : Consistent' t) (l : String) (js : List UJoint)
    (hpath : IsPath t t.root js l) (hbad : ∃ j ∈ js, ¬ OneDof j.type) :
    ∃ n0, ∀ n ≥ n0, t.defineAsRootLink n l = some (.throws, t) := by
  refine ⟨js.length + 1, fun n hn => ?_⟩
  unfold Tree.defineAsRootLink
  rw [pathToRoot_throws hc js l n hpath hbad (by omega)]

/-- A floating joint on the path. -/
example : let j : UJoint := ⟨"j", some .floating, "r", "a", none, none, none⟩
    let t : Tree := ⟨[⟨"r", [], [], []⟩, ⟨"a", [], [], []⟩], [j], "r"⟩
    Consistent' t ∧ IsPath t "r" [j] "a" ∧ ¬ OneDof j.type := by
  refine ⟨?_, by simp [IsPath], by simp [OneDof]⟩
  refine ⟨?_, ?_, ?_, ?_, ?_, ?_, ?_, ?_⟩ <;> simp

/-- A link that does not exist makes `define_as_root_link` throw; nothing changes. -/
theorem C48_unknown (t : Tree) (hc : Consistent' t) (l : String)
    (hl : ∀ x ∈ t.links, x.name ≠ l) :
    ∀ n ≥ 1, t.defineAsRootLink n l = some (.throws, t) := by
  intro n hn
  obtain ⟨m, rfl⟩ := Nat.exists_eq_succ_of_ne_zero (by omega : n ≠ 0)
  have h1 : l ≠ t.root := by
    rintro rfl
    obtain ⟨x, hx, e⟩ := hc.root_mem
    exact hl x hx e
  have h2 : t.joints.find? (fun j => decide (j.child = l)) = none := by
    rw [List.find?_eq_none]
    intro j hj
    simp only [decide_eq_true_eq]
    rintro rfl
    obtain ⟨x, hx, e⟩ := hc.children j hj
    exact hl x hx e
  unfold Tree.defineAsRootLink
  rw [Tree.pathToRoot, if_neg h1, h2]

example : ∀ x ∈ armTree.links, x.name ≠ "c" := by simp [armTree]

/-- For a link of a kinematic loop apart from the root, `define_as_root_link` never returns
(unless it meets a joint it refuses). -/
theorem C48_diverges (t : Tree) (hc : Consistent' t) (hty : ∀ j ∈ t.joints, OneDof j.type)
    (l : String) (hl : ∃ x ∈ t.links, x.name = l) (hr : ¬ Reach t l) :
    ∀ n, t.defineAsRootLink n l = none := by
  have key : ∀ n l, (∃ x ∈ t.links, x.name = l) → ¬ Reach t l → t.pathToRoot n l = none := by
    intro n
    induction n with
    | zero => intros; rfl
    | succ n ih =>
      intro l hl hr
      obtain ⟨x, hx, rfl⟩ := hl
      have h1 : x.name ≠ t.root := fun e => hr (by rw [Reach, e])
      obtain ⟨j, hj, e⟩ := hc.others_child x hx h1
      rw [← e] at hr h1 ⊢
      have hrec := ih j.parent (hc.parents j hj) fun h => hr (reach_child hj h)
      rw [Tree.pathToRoot, if_neg h1, find_child_joint hc hj]
      simp only
      rcases hty j hj with e | e | e | e <;> rw [e] <;> simp only <;> rw [hrec] <;> rfl
  intro n
  unfold Tree.defineAsRootLink
  rw [key n l hl hr]

/-- The loader accepts such a document. -/
theorem C48_diverges_loaded : ∃ t, load cycleDoc = .ok t ∧ (∃ x ∈ t.links, x.name = "a") ∧
    ∀ n, t.defineAsRootLink n "a" = none := by
  obtain ⟨t, ht, hroot, -, hnr⟩ := C45_cycle_accepted
  have hc := (C45_consistent _ _ ht).1
  obtain ⟨-, hl, hj, -, -⟩ := (load_ok_iff _ t).1 ht
  have hmem : ∃ x ∈ t.links, x.name = "a" := by
    rw [hl]
    exact ⟨⟨"a", [], [], []⟩, by simp [cycleDoc, docLinks], rfl⟩
  refine ⟨t, ht, hmem, ?_⟩
  refine C48_diverges t hc ?_ "a" hmem ?_
  · intro j hj'
    rw [hj, index_mem] at hj'
    simp [cycleDoc, docJoints] at hj'
    rcases hj' with rfl | rfl <;> simp [OneDof]
  · rw [Reach, hroot]; exact hnr

/-! ### Counterexamples -/

/-- A link with a malformed visual origin, and a fixed joint. Helper of the proofs. Not in /repo:
specification. -/
def badVisualTree : Tree where
  links := [⟨"r", [], [some ⟨.bad, .absent⟩], []⟩, ⟨"a", [], [], []⟩]
  joints := [⟨"j", some .fixed, "r", "a", some ⟨.val ![1, 0, 0], .absent⟩, none, none⟩]
  root := "r"

/-- `define_as_root_link` is not atomic: a malformed origin of a visual makes it throw after it
removed the origin of the joint, which moves the link by one metre. -/
theorem C48_not_atomic : Consistent' badVisualTree ∧ Connected badVisualTree ∧
    ∃ t', badVisualTree.defineAsRootLink 2 "a" = some (.throws, t') ∧
      badVisualTree.joints.map (fun j => originMat j.origin) =
        [homog 1 ![1, 0, 0]] ∧
      t'.joints.map (fun j => originMat j.origin) = [1] ∧ t'.links = badVisualTree.links ∧
      t'.root = "r" := by
  refine ⟨?_, ?_, ?_⟩
  · refine ⟨?_, ?_, ?_, ?_, ?_, ?_, ?_, ?_⟩ <;> simp [badVisualTree]
  · intro l hl
    simp [badVisualTree] at hl
    rcases hl with rfl | rfl
    · exact .refl
    · exact .single ⟨_, .head _, rfl, rfl⟩
  · have he : UPose.fromElem ⟨.val ![1, 0, 0], .absent⟩ = .ok ⟨![1, 0, 0], ![0, 0, 0]⟩ := rfl
    have hpre : premul (UPose.inverse ⟨![1, 0, 0], ![0, 0, 0]⟩) ⟨![1, 0, 0], ![0, 0, 0]⟩ false
        (some ⟨.val ![1, 0, 0], .absent⟩) = .ok none := by
      simp only [premul, UPose.fromPtree, he, Res.bind_ok, ne_eq, not_true_eq_false, if_false,
        if_true, Bool.false_eq_true]
    have hbad : premul (UPose.inverse ⟨![1, 0, 0], ![0, 0, 0]⟩) ⟨![1, 0, 0], ![0, 0, 0]⟩ false
        (some ⟨.bad, .absent⟩) = .throws := by
      simp [premul, UPose.fromPtree, UPose.fromElem, getPoseChild]
    refine ⟨⟨badVisualTree.links, [⟨"j", some .fixed, "r", "a", none, none, none⟩], "r"⟩, ?_, ?_, ?_,
      rfl, rfl⟩
    · simp [Tree.defineAsRootLink, Tree.pathToRoot, badVisualTree, Res.map, Tree.flipAll,
        Tree.flipRootLinkJoint, Tree.findJoint, Tree.transportToJoint, he, Tree.findLink,
        Tree.transportRootLinkFrame, mapUpTo, transportJoint, hpre, transportLink, hbad]
    · simp only [badVisualTree, List.map_cons, List.map_nil]
      rw [originMat_ok (p := ⟨![1, 0, 0], ![0, 0, 0]⟩) rfl, poseMat]
      simp only
      rw [vec_zero, rpyRot_zero]
    · simp only [List.map_cons, List.map_nil, originMat_none]

/-- A full turn as the origin of a joint. Helper of the proofs. Not in /repo: specification. -/
noncomputable def fullTurnTree : Tree where
  links := [⟨"r", [], [none], []⟩, ⟨"a", [], [], []⟩]
  joints := [⟨"j", some .fixed, "r", "a", some ⟨.absent, .val ![2 * Real.pi, 0, 0]⟩, none, none⟩]
  root := "r"

theorem rpyRot_fullTurn : rpyRot ![2 * Real.pi, 0, 0] = 1 := by
  simp [rpyRot, rodrigues]

theorem rpyFromMatrix_one : rpyFromMatrix 1 = 0 := by
  have h0 : atan2 0 1 = 0 := by
    rw [atan2, show (⟨1, 0⟩ : ℂ) = 1 from rfl, Complex.arg_one]
  ext i
  fin_cases i <;> simp [rpyFromMatrix, eulerAngles210, h0]

/-- With a joint origin and another origin of the same link that denote the same transform with
different numbers, the behaviour of `define_as_root_link` is undefined. -/
theorem C48_ambiguous_undefined : Consistent' fullTurnTree ∧ Connected fullTurnTree ∧
    ∃ t', fullTurnTree.defineAsRootLink 2 "a" = some (.ub, t') := by
  refine ⟨?_, ?_, ?_⟩
  · refine ⟨?_, ?_, ?_, ?_, ?_, ?_, ?_, ?_⟩ <;> simp [fullTurnTree]
  · intro l hl
    simp [fullTurnTree] at hl
    rcases hl with rfl | rfl
    · exact .refl
    · exact .single ⟨_, .head _, rfl, rfl⟩
  · set P : UPose := ⟨![0, 0, 0], ![2 * Real.pi, 0, 0]⟩ with hP
    have he : UPose.fromElem ⟨.absent, .val ![2 * Real.pi, 0, 0]⟩ = .ok P := rfl
    have hpre : premul P.inverse P false (some ⟨.absent, .val ![2 * Real.pi, 0, 0]⟩) = .ok none := by
      simp only [premul, UPose.fromPtree, he, Res.bind_ok, ne_eq, not_true_eq_false, if_false,
        if_true, Bool.false_eq_true]
    have hnz : ¬ isZero P.rpy := by
      intro h
      have := h.1
      simp [hP, Real.pi_ne_zero] at this
    have hinv : P.inverse = UPose.zero := by
      unfold UPose.inverse
      rw [if_neg hnz, if_neg (by simp [hP, isZero])]
      have : quatFromRpy P.rpy = 1 := by rw [quatFromRpy_eq, hP]; exact rpyRot_fullTurn
      rw [this, Matrix.transpose_one, rpyFromMatrix_one, UPose.zero, vec_zero]
    have hzz : UPose.zero.mul UPose.zero = UPose.zero := by
      have h0 : isZero (0 : Array3d) := by simp [isZero]
      simp [UPose.mul, UPose.zero, vec_zero, h0]
    have hz : UPose.zero.toPtree = none := by
      unfold UPose.toPtree
      rw [if_pos]
      simp [UPose.zero, isZero]
    have hbad : premul P.inverse P false none = .ub := by
      have hne : UPose.zero ≠ P := by
        intro h
        have := congrFun (congrArg UPose.rpy h) 0
        simp [hP, UPose.zero, Real.pi_ne_zero] at this
      simp only [premul, UPose.fromPtree, Res.bind_ok, ne_eq, not_true_eq_false, if_false, hne]
      rw [hinv, hzz, hz]
    refine ⟨⟨fullTurnTree.links, [⟨"j", some .fixed, "r", "a", none, none, none⟩], "r"⟩, ?_⟩
    simp [Tree.defineAsRootLink, Tree.pathToRoot, fullTurnTree, Res.map, Tree.flipAll,
      Tree.flipRootLinkJoint, Tree.findJoint, Tree.transportToJoint, he, Tree.findLink,
      Tree.transportRootLinkFrame, mapUpTo, transportJoint, hpre, transportLink, hbad]

end AlMath
