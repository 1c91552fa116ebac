import Verif.Model.Anim
import Mathlib.Data.List.Forall2
import Mathlib.Data.List.InsertIdx
import Mathlib.Order.Basic

/-!
C52: animation keys and labels stay sorted. C53: refused animation edits.
-/

namespace AlMath

open Anim

namespace Spec

/-- The `frame` attribute of the element is the non-negative 32-bit number `f`. Not in /repo:
specification. -/
def FrameIs (pt : PTree) (f : ℤ) : Prop :=
  pt.attr "frame" = some (.num f) ∧ 0 ≤ f ∧ f < 2 ^ 31

/-- The children are other elements, then elements with the given name whose frames are sorted.
Not in /repo: specification. -/
def Sorted (tag : String) (r : ℤ → ℤ → Prop) (l : List (String × PTree)) : Prop :=
  ∃ (pre ks : List (String × PTree)) (fs : List ℤ), l = pre ++ ks ∧ (∀ c ∈ pre, c.1 ≠ tag) ∧
    List.Forall₂ (fun c f => c.1 = tag ∧ FrameIs c.2 f) ks fs ∧ fs.Pairwise r

/-- A curve: keys with strictly increasing frames, after the other children. Not in /repo:
specification. -/
def Curve (pt : PTree) : Prop := Sorted "Key" (· < ·) pt.children

/-- Sorted labels, after the other children. Not in /repo: specification. -/
def SortedLabels (pt : PTree) : Prop := Sorted "Label" (· ≤ ·) pt.children

/-- A key of the curve at position `i` for the frame. Not in /repo: specification. -/
def KeyAt (pt : PTree) (i : ℕ) (f : ℤ) : Prop :=
  ∃ c, pt.children[i]? = some c ∧ c.1 = "Key" ∧ FrameIs c.2 f

end Spec

open Spec

/-! ### Frames -/

theorem toInt_int (n : ℤ) (h0 : -2 ^ 31 ≤ n) (h1 : n < 2 ^ 31) : Data.toInt (.num n) = some n := by
  unfold Data.toInt
  dsimp only
  rw [if_pos]
  · simp
  · simp only [Int.floor_intCast, true_and]
    exact ⟨h0, h1⟩

theorem toInt_eq {d : Data} {n : ℤ} (h : d.toInt = some n) : d = .num n ∧ -2 ^ 31 ≤ n ∧ n < 2 ^ 31 := by
  cases d with
  | str s => simp [Data.toInt] at h
  | num x =>
    unfold Data.toInt at h
    dsimp only at h
    split_ifs at h with hx
    have e := Option.some.inj h
    rw [e] at hx
    exact ⟨by rw [hx.1], hx.2⟩

theorem getFrame_iff (pt : PTree) (f : ℤ) : getFrame pt = .ok f ↔ FrameIs pt f := by
  unfold getFrame FrameIs
  constructor
  · intro h
    cases ha : pt.attr "frame" with
    | none => simp [ha, mandatory] at h
    | some d =>
      cases hd : d.toInt with
      | none => simp [ha, hd, mandatory] at h
      | some n =>
        simp only [ha, hd, mandatory, Option.bind_some, Res.bind_ok] at h
        split_ifs at h with hn
        have e := Res.ok.inj h
        subst e
        obtain ⟨rfl, -, h2⟩ := toInt_eq hd
        exact ⟨rfl, by omega, h2⟩
  · rintro ⟨h1, h2, h3⟩
    rw [h1]
    simp only [Option.bind_some]
    rw [toInt_int f (by omega) h3]
    simp only [mandatory, Res.bind_ok]
    rw [if_neg (by omega)]

theorem frameIs_unique {pt : PTree} {f g : ℤ} (h1 : FrameIs pt f) (h2 : FrameIs pt g) : f = g := by
  have := h1.1.symm.trans h2.1
  simpa using this

theorem getFrame_ne_ub (pt : PTree) : getFrame pt ≠ .ub := by
  unfold getFrame mandatory
  cases (pt.attr "frame").bind Data.toInt with
  | none => simp
  | some n => simp only [Res.bind_ok]; split_ifs <;> simp

/-! ### Binary search -/

theorem lowerBound_ok {α : Type} {comp : α → Res Bool} {l1 l2 : List α}
    (h1 : ∀ a ∈ l1, comp a = .ok true) (h2 : ∀ a ∈ l2, comp a = .ok false) :
    ∀ len first, first ≤ l1.length → l1.length ≤ first + len →
      first + len ≤ (l1 ++ l2).length → lowerBound comp (l1 ++ l2) first len = .ok l1.length := by
  intro len
  induction len using Nat.strong_induction_on with
  | _ len ih =>
    intro first ha hb hc
    rw [lowerBound]
    split_ifs with h0
    · congr 1; omega
    · have hlt : first + len / 2 < (l1 ++ l2).length := by omega
      dsimp only
      rw [List.getElem?_eq_getElem hlt]
      simp only
      by_cases hh : first + len / 2 < l1.length
      · have hm : (l1 ++ l2)[first + len / 2] ∈ l1 := by
          rw [List.getElem_append_left hh]; exact List.getElem_mem _
        rw [h1 _ hm]
        simp only
        exact ih _ (by omega) _ (by omega) (by omega) (by omega)
      · have hm : (l1 ++ l2)[first + len / 2] ∈ l2 := by
          rw [List.getElem_append_right (by omega)]; exact List.getElem_mem _
        rw [h2 _ hm]
        simp only
        exact ih _ (by omega) _ (by omega) (by omega) (by omega)

theorem upperBound_ok {α : Type} {comp : α → Res Bool} {l1 l2 : List α}
    (h1 : ∀ a ∈ l1, comp a = .ok false) (h2 : ∀ a ∈ l2, comp a = .ok true) :
    ∀ len first, first ≤ l1.length → l1.length ≤ first + len →
      first + len ≤ (l1 ++ l2).length → upperBound comp (l1 ++ l2) first len = .ok l1.length := by
  intro len
  induction len using Nat.strong_induction_on with
  | _ len ih =>
    intro first ha hb hc
    rw [upperBound]
    split_ifs with h0
    · congr 1; omega
    · have hlt : first + len / 2 < (l1 ++ l2).length := by omega
      dsimp only
      rw [List.getElem?_eq_getElem hlt]
      simp only
      by_cases hh : first + len / 2 < l1.length
      · have hm : (l1 ++ l2)[first + len / 2] ∈ l1 := by
          rw [List.getElem_append_left hh]; exact List.getElem_mem _
        rw [h1 _ hm]
        simp only
        exact ih _ (by omega) _ (by omega) (by omega) (by omega)
      · have hm : (l1 ++ l2)[first + len / 2] ∈ l2 := by
          rw [List.getElem_append_right (by omega)]; exact List.getElem_mem _
        rw [h2 _ hm]
        simp only
        exact ih _ (by omega) _ (by omega) (by omega) (by omega)

theorem lowerBound_ne_ub {α : Type} {comp : α → Res Bool} {l : List α} (h : ∀ a, comp a ≠ .ub) :
    ∀ len first, first + len ≤ l.length →
      lowerBound comp l first len ≠ .ub ∧
        ∀ i, lowerBound comp l first len = .ok i → i ≤ l.length := by
  intro len
  induction len using Nat.strong_induction_on with
  | _ len ih =>
    intro first hc
    rw [lowerBound]
    split_ifs with h0
    · refine ⟨by simp, ?_⟩
      intro i e
      rw [← Res.ok.inj e]; omega
    · have hlt : first + len / 2 < l.length := by omega
      dsimp only
      rw [List.getElem?_eq_getElem hlt]
      simp only
      have hub := h l[first + len / 2]
      cases hcomp : comp l[first + len / 2] with
      | ok b =>
        cases b with
        | true => exact ih _ (by omega) _ (by omega)
        | false => exact ih _ (by omega) _ (by omega)
      | throws => simp
      | ub => exact absurd hcomp hub

theorem upperBound_ne_ub {α : Type} {comp : α → Res Bool} {l : List α} (h : ∀ a, comp a ≠ .ub) :
    ∀ len first, first + len ≤ l.length →
      upperBound comp l first len ≠ .ub ∧
        ∀ i, upperBound comp l first len = .ok i → i ≤ l.length := by
  intro len
  induction len using Nat.strong_induction_on with
  | _ len ih =>
    intro first hc
    rw [upperBound]
    split_ifs with h0
    · refine ⟨by simp, ?_⟩
      intro i e
      rw [← Res.ok.inj e]; omega
    · have hlt : first + len / 2 < l.length := by omega
      dsimp only
      rw [List.getElem?_eq_getElem hlt]
      simp only
      have hub := h l[first + len / 2]
      cases hcomp : comp l[first + len / 2] with
      | ok b =>
        cases b with
        | true => exact ih _ (by omega) _ (by omega)
        | false => exact ih _ (by omega) _ (by omega)
      | throws => simp
      | ub => exact absurd hcomp hub

/-! ### Sorted children -/

theorem children_node (d : Data) (c : List (String × PTree)) : (PTree.node d c).children = c := rfl


/-- Splitting of sorted children at a frame: those for which `p` holds come first. -/
theorem sorted_split {tag : String} {r : ℤ → ℤ → Prop} {l : List (String × PTree)}
    (h : Sorted tag r l) (p : ℤ → Prop) (hp : ∀ f g, r f g → p g → p f) :
    ∃ (pre k1 k2 : List (String × PTree)) (f1 f2 : List ℤ), l = (pre ++ k1) ++ k2 ∧
      (∀ c ∈ pre, c.1 ≠ tag) ∧
      List.Forall₂ (fun c f => c.1 = tag ∧ FrameIs c.2 f) k1 f1 ∧
      List.Forall₂ (fun c f => c.1 = tag ∧ FrameIs c.2 f) k2 f2 ∧ (f1 ++ f2).Pairwise r ∧
      (∀ f ∈ f1, p f) ∧ ∀ f ∈ f2, ¬ p f := by
  classical
  obtain ⟨pre, ks, fs, rfl, hpre, hks, hfs⟩ := h
  have key : ∀ (ks : List (String × PTree)) (fs : List ℤ),
      List.Forall₂ (fun c f => c.1 = tag ∧ FrameIs c.2 f) ks fs → fs.Pairwise r →
      ∃ k1 k2 f1 f2, ks = k1 ++ k2 ∧ fs = f1 ++ f2 ∧
        List.Forall₂ (fun c f => c.1 = tag ∧ FrameIs c.2 f) k1 f1 ∧
        List.Forall₂ (fun c f => c.1 = tag ∧ FrameIs c.2 f) k2 f2 ∧
        (∀ f ∈ f1, p f) ∧ ∀ f ∈ f2, ¬ p f := by
    intro ks fs hks
    induction hks with
    | nil => intro _; exact ⟨[], [], [], [], rfl, rfl, .nil, .nil, by simp, by simp⟩
    | @cons c f ks fs hc hks ih =>
      intro hfs
      by_cases hf : p f
      · obtain ⟨k1, k2, f1, f2, rfl, rfl, a, b, d, e⟩ := ih hfs.of_cons
        refine ⟨c :: k1, k2, f :: f1, f2, rfl, rfl, .cons hc a, b, ?_, e⟩
        intro g hg
        rcases List.mem_cons.1 hg with rfl | hg
        · exact hf
        · exact d g hg
      · refine ⟨[], c :: ks, [], f :: fs, rfl, rfl, .nil, .cons hc hks, by simp, ?_⟩
        intro g hg hpg
        rcases List.mem_cons.1 hg with rfl | hg
        · exact hf hpg
        · exact hf (hp f g (List.rel_of_pairwise_cons hfs hg) hpg)
  obtain ⟨k1, k2, f1, f2, rfl, rfl, a, b, d, e⟩ := key ks fs hks hfs
  exact ⟨pre, k1, k2, f1, f2, by simp, hpre, a, b, hfs, d, e⟩

theorem forall₂_mem_left {α β : Type} {R : α → β → Prop} {l : List α} {m : List β}
    (h : List.Forall₂ R l m) : ∀ a ∈ l, ∃ b ∈ m, R a b := by
  induction h with
  | nil => simp
  | cons hab _ ih =>
    intro x hx
    rcases List.mem_cons.1 hx with rfl | hx
    · exact ⟨_, by simp, hab⟩
    · obtain ⟨b, hb, h⟩ := ih x hx
      exact ⟨b, by simp [hb], h⟩

/-- Insertion of an element between the two parts keeps the children sorted. -/
theorem sorted_insert {tag : String} {r : ℤ → ℤ → Prop} {pre k1 k2 : List (String × PTree)}
    {f1 f2 : List ℤ} {c : String × PTree} {f : ℤ} (hpre : ∀ c ∈ pre, c.1 ≠ tag)
    (h1 : List.Forall₂ (fun c f => c.1 = tag ∧ FrameIs c.2 f) k1 f1)
    (h2 : List.Forall₂ (fun c f => c.1 = tag ∧ FrameIs c.2 f) k2 f2)
    (hr : (f1 ++ f2).Pairwise r) (hc : c.1 = tag ∧ FrameIs c.2 f)
    (hlt : ∀ g ∈ f1, r g f) (hgt : ∀ g ∈ f2, r f g) :
    Sorted tag r ((pre ++ k1) ++ c :: k2) := by
  refine ⟨pre, k1 ++ c :: k2, f1 ++ f :: f2, by simp, hpre, List.rel_append h1 (.cons hc h2), ?_⟩
  rw [List.pairwise_append] at hr ⊢
  refine ⟨hr.1, List.pairwise_cons.2 ⟨hgt, hr.2.1⟩, ?_⟩
  intro a ha b hb
  rcases List.mem_cons.1 hb with rfl | hb
  · exact hlt a ha
  · exact hr.2.2 a ha b hb

theorem insertIdx_append {α : Type} (l1 l2 : List α) (a : α) :
    (l1 ++ l2).insertIdx l1.length a = l1 ++ a :: l2 := by
  induction l1 with
  | nil => rfl
  | cons b l1 ih => simp [List.insertIdx_succ_cons, ih]

theorem putFrame_new (d : Data) (f : ℤ) (h0 : 0 ≤ f) :
    putFrame (.node d []) f = .ok (.node d [("<xmlattr>", .node (.str "") [("frame", .node (.num f) [])])]) := by
  unfold putFrame
  rw [if_neg (by omega)]
  rfl

theorem frameIs_new (d : Data) (f : ℤ) (h0 : 0 ≤ f) (h1 : f < 2 ^ 31) :
    FrameIs (.node d [("<xmlattr>", .node (.str "") [("frame", .node (.num f) [])])]) f :=
  ⟨by simp [PTree.attr, PTree.find, PTree.children, PTree.data], h0, h1⟩

theorem keyComp_key {c : String × PTree} {g f : ℤ} (h : c.1 = "Key" ∧ FrameIs c.2 g) :
    keyComp f c = .ok (decide (g < f)) := by
  unfold keyComp
  rw [if_neg (by simp [h.1]), (getFrame_iff _ _).2 h.2]
  rfl

theorem labelComp_label {c : String × PTree} {g f : ℤ} (h : c.1 = "Label" ∧ FrameIs c.2 g) :
    labelComp f c = .ok (decide (f < g)) := by
  unfold labelComp
  rw [if_neg (by simp [h.1]), (getFrame_iff _ _).2 h.2]
  rfl

theorem keyComp_ne_ub (f : ℤ) (c : String × PTree) : keyComp f c ≠ .ub := by
  unfold keyComp
  split_ifs
  · simp
  · have := getFrame_ne_ub c.2
    cases h : getFrame c.2 <;> simp_all [Res.map]

theorem labelComp_ne_ub (f : ℤ) (c : String × PTree) : labelComp f c ≠ .ub := by
  unfold labelComp
  split_ifs
  · simp
  · have := getFrame_ne_ub c.2
    cases h : getFrame c.2 <;> simp_all [Res.map]

/-- The position found by `lower_bound`. -/
theorem curve_lowerBound {pt : PTree} (h : Curve pt) (f : ℤ) :
    ∃ (pre k1 k2 : List (String × PTree)) (f1 f2 : List ℤ), pt.children = (pre ++ k1) ++ k2 ∧
      (∀ c ∈ pre, c.1 ≠ "Key") ∧
      List.Forall₂ (fun c f => c.1 = "Key" ∧ FrameIs c.2 f) k1 f1 ∧
      List.Forall₂ (fun c f => c.1 = "Key" ∧ FrameIs c.2 f) k2 f2 ∧ (f1 ++ f2).Pairwise (· < ·) ∧
      (∀ g ∈ f1, g < f) ∧ (∀ g ∈ f2, ¬ g < f) ∧
      lowerBound (keyComp f) pt.children 0 pt.children.length = .ok (pre ++ k1).length := by
  obtain ⟨pre, k1, k2, f1, f2, he, hpre, hk1, hk2, hr, hlt, hge⟩ :=
    sorted_split h (fun g => g < f) (fun a b hab hb => lt_trans hab hb)
  refine ⟨pre, k1, k2, f1, f2, he, hpre, hk1, hk2, hr, hlt, hge, ?_⟩
  rw [he]
  refine lowerBound_ok ?_ ?_ _ _ (by omega) (by simp only [List.length_append]; omega) (by omega)
  · intro a ha
    rcases List.mem_append.1 ha with ha | ha
    · simp [keyComp, hpre a ha]
    · obtain ⟨g, hg, hag⟩ := forall₂_mem_left hk1 a ha
      rw [keyComp_key hag, decide_eq_true (hlt g hg)]
  · intro a ha
    obtain ⟨g, hg, hag⟩ := forall₂_mem_left hk2 a ha
    rw [keyComp_key hag, decide_eq_false (hge g hg)]

/-- The position found by `upper_bound`. -/
theorem labels_upperBound {pt : PTree} (h : SortedLabels pt) (f : ℤ) :
    ∃ (pre k1 k2 : List (String × PTree)) (f1 f2 : List ℤ), pt.children = (pre ++ k1) ++ k2 ∧
      (∀ c ∈ pre, c.1 ≠ "Label") ∧
      List.Forall₂ (fun c f => c.1 = "Label" ∧ FrameIs c.2 f) k1 f1 ∧
      List.Forall₂ (fun c f => c.1 = "Label" ∧ FrameIs c.2 f) k2 f2 ∧ (f1 ++ f2).Pairwise (· ≤ ·) ∧
      (∀ g ∈ f1, g ≤ f) ∧ (∀ g ∈ f2, ¬ g ≤ f) ∧
      upperBound (labelComp f) pt.children 0 pt.children.length = .ok (pre ++ k1).length := by
  obtain ⟨pre, k1, k2, f1, f2, he, hpre, hk1, hk2, hr, hlt, hge⟩ :=
    sorted_split h (fun g => g ≤ f) (fun a b hab hb => le_trans hab hb)
  refine ⟨pre, k1, k2, f1, f2, he, hpre, hk1, hk2, hr, hlt, hge, ?_⟩
  rw [he]
  refine upperBound_ok ?_ ?_ _ _ (by omega) (by simp only [List.length_append]; omega) (by omega)
  · intro a ha
    rcases List.mem_append.1 ha with ha | ha
    · simp [labelComp, hpre a ha]
    · obtain ⟨g, hg, hag⟩ := forall₂_mem_left hk1 a ha
      rw [labelComp_label hag, decide_eq_false (not_lt.2 (hlt g hg))]
  · intro a ha
    obtain ⟨g, hg, hag⟩ := forall₂_mem_left hk2 a ha
    rw [labelComp_label hag, decide_eq_true (not_le.1 (hge g hg))]

/-- What the test after the search tells. -/
theorem curve_found {pt : PTree} {pre k1 k2 : List (String × PTree)} {f1 f2 : List ℤ} {f : ℤ}
    (he : pt.children = (pre ++ k1) ++ k2) (hpre : ∀ c ∈ pre, c.1 ≠ "Key")
    (hk1 : List.Forall₂ (fun c f => c.1 = "Key" ∧ FrameIs c.2 f) k1 f1)
    (hk2 : List.Forall₂ (fun c f => c.1 = "Key" ∧ FrameIs c.2 f) k2 f2)
    (hr : (f1 ++ f2).Pairwise (· < ·)) (hlt : ∀ g ∈ f1, g < f) (hge : ∀ g ∈ f2, ¬ g < f) :
    (isFrameAt pt (pre ++ k1).length f = .ok true ∧ (∀ i, KeyAt pt i f ↔ i = (pre ++ k1).length)) ∨
    (isFrameAt pt (pre ++ k1).length f = .ok false ∧ (∀ i, ¬ KeyAt pt i f) ∧ ∀ g ∈ f2, f < g) := by
  have hleft : ∀ i, i < (pre ++ k1).length → ¬ KeyAt pt i f := by
    rintro i hi ⟨c, hc, hct, hcf⟩
    rw [he, List.getElem?_append_left hi] at hc
    rcases List.mem_append.1 (List.mem_of_getElem? hc) with hm | hm
    · exact hpre c hm hct
    · obtain ⟨g, hg, -, hgf⟩ := forall₂_mem_left hk1 c hm
      have := hlt g hg
      rw [frameIs_unique hgf hcf] at this
      omega
  have hright : ∀ k2 f2, List.Forall₂ (fun c f => c.1 = "Key" ∧ FrameIs c.2 f) k2 f2 →
      (∀ g ∈ f2, f < g) → ∀ c ∈ k2, ¬ FrameIs (Prod.snd c) f := by
    intro k2 f2 hk2 hgt c hm hcf
    obtain ⟨g, hg, -, hgf⟩ := forall₂_mem_left hk2 c hm
    have := hgt g hg
    rw [frameIs_unique hgf hcf] at this
    omega
  cases hk2 with
  | nil =>
    right
    refine ⟨?_, ?_, by simp⟩
    · unfold isFrameAt
      rw [he, List.append_nil, List.getElem?_eq_none (le_refl _)]
    · intro i hi
      by_cases hlt' : i < (pre ++ k1).length
      · exact hleft i hlt' hi
      · obtain ⟨c, hc, -⟩ := hi
        rw [he, List.append_nil, List.getElem?_eq_none (by omega)] at hc
        cases hc
  | @cons c g k2 f2 hc hk2 =>
    have hat : pt.children[(pre ++ k1).length]? = some c := by
      rw [he, List.getElem?_append_right (le_refl _)]; simp
    have hpair := (List.pairwise_append.1 hr).2.1
    have hgt' : ∀ g' ∈ f2, g < g' := fun g' hg' => List.rel_of_pairwise_cons hpair hg'
    have hgf := hge g (by simp)
    have hval : isFrameAt pt (pre ++ k1).length f = .ok (decide (g = f)) := by
      unfold isFrameAt
      rw [hat]
      simp only
      rw [(getFrame_iff _ _).2 hc.2]
      rfl
    have hnot : ∀ i, (pre ++ k1).length < i → f ≤ g → ¬ KeyAt pt i f := by
      rintro i hi hfg ⟨c', hc', -, hf'⟩
      rw [he, List.getElem?_append_right (by omega)] at hc'
      obtain ⟨m, hm⟩ := Nat.exists_eq_succ_of_ne_zero (by omega : i - (pre ++ k1).length ≠ 0)
      rw [hm, Nat.succ_eq_add_one, List.getElem?_cons_succ] at hc'
      exact hright k2 f2 hk2 (fun g' hg' => lt_of_le_of_lt hfg (hgt' g' hg')) c'
        (List.mem_of_getElem? hc') hf'
    by_cases e : g = f
    · left
      refine ⟨by rw [hval, decide_eq_true e], ?_⟩
      intro i
      constructor
      · intro hi
        rcases lt_trichotomy i (pre ++ k1).length with h | h | h
        · exact absurd hi (hleft i h)
        · exact h
        · exact absurd hi (hnot i h (by omega))
      · rintro rfl
        exact ⟨c, hat, hc.1, e ▸ hc.2⟩
    · right
      refine ⟨by rw [hval, decide_eq_false e], ?_, ?_⟩
      · intro i hi
        rcases lt_trichotomy i (pre ++ k1).length with h | h | h
        · exact hleft i h hi
        · obtain ⟨c', hc', -, hf'⟩ := hi
          rw [h, hat] at hc'
          have := Option.some.inj hc'
          subst this
          exact e (frameIs_unique hc.2 hf')
        · exact hnot i h (by omega) hi
      · intro g' hg'
        rcases List.mem_cons.1 hg' with rfl | hg'
        · omega
        · have := hgt' g' hg'
          omega

/-! ### C52 -/

/-- On a curve, `get_key_optional` returns the position of the key with the given frame, and
nothing exactly when there is none. What is missing: elements that are not keys must come before
the keys, see `C52_comment_hides_key`. -/
theorem C52_get_partial (pt : PTree) (hc : Curve pt) (f : ℤ) :
    ∃ o, getKeyOptional pt f = .ok o ∧ ∀ i, o = some i ↔ KeyAt pt i f := by
  obtain ⟨pre, k1, k2, f1, f2, he, hpre, hk1, hk2, hr, hlt, hge, hlb⟩ := curve_lowerBound hc f
  unfold getKeyOptional
  rw [hlb]
  simp only [Res.bind_ok]
  rcases curve_found he hpre hk1 hk2 hr hlt hge with ⟨h1, h2⟩ | ⟨h1, h2, -⟩
  · rw [h1]
    refine ⟨some (pre ++ k1).length, by simp, ?_⟩
    intro i
    rw [h2]
    simp only [Option.some.injEq]
    exact eq_comm
  · rw [h1]
    refine ⟨none, by simp, ?_⟩
    intro i
    simp [h2]

open Classical in
/-- On a curve, `require_key` of a frame returns a key with that frame. When there was one, the
document does not change; otherwise exactly one key is inserted, with nothing but its frame. The
result is a curve. What is missing: elements that are not keys must come before the keys, see
`C52_comment_hides_key`. -/
theorem C52_require_partial (pt : PTree) (hc : Curve pt) (f : ℤ) (h0 : 0 ≤ f) (h1 : f < 2 ^ 31) :
    ∃ i pt', requireKey pt f = (.ok i, pt') ∧ KeyAt pt' i f ∧ Curve pt' ∧ pt'.data = pt.data ∧
      if ∃ i, KeyAt pt i f then pt' = pt
      else ∃ k, pt'.children = pt.children.insertIdx i ("Key", k) ∧ i ≤ pt.children.length ∧
        k.data = .str "" ∧ k.children =
          [("<xmlattr>", .node (.str "") [("frame", .node (.num f) [])])] := by
  obtain ⟨pre, k1, k2, f1, f2, he, hpre, hk1, hk2, hr, hlt, hge, hlb⟩ := curve_lowerBound hc f
  unfold requireKey
  rw [hlb]
  simp only
  rcases curve_found he hpre hk1 hk2 hr hlt hge with ⟨h2, h3⟩ | ⟨h2, h3, h4⟩
  · rw [h2]
    refine ⟨_, pt, rfl, (h3 _).2 rfl, hc, rfl, ?_⟩
    rw [if_pos ⟨_, (h3 _).2 rfl⟩]
  · rw [h2]
    simp only
    unfold insertFrame
    rw [PTree.empty, putFrame_new _ f h0]
    simp only
    refine ⟨_, _, rfl, ?_, ?_, rfl, ?_⟩
    · refine ⟨("Key", _), ?_, rfl, frameIs_new (.str "") f h0 h1⟩
      simp only [children_node]
      rw [he, insertIdx_append, List.getElem?_append_right (le_refl _)]
      simp
    · unfold Curve
      simp only [children_node]
      rw [he, insertIdx_append]
      exact sorted_insert hpre hk1 hk2 hr ⟨rfl, frameIs_new (.str "") f h0 h1⟩ hlt h4
    · rw [if_neg (fun ⟨i, hi⟩ => h3 i hi)]
      refine ⟨_, rfl, ?_, rfl, rfl⟩
      rw [he]; simp

/-- With sorted labels, `add_label` inserts exactly one label with the given frame and text, after
the labels with the same frame. The result is sorted. What is missing: elements that are not
labels must come before the labels, see `C52_comment_breaks_order`. -/
theorem C52_label_partial (pt : PTree) (hc : SortedLabels pt) (f : ℤ) (value : String) (h0 : 0 ≤ f)
    (h1 : f < 2 ^ 31) :
    ∃ i k pt', addLabel pt f value = (.ok i, pt') ∧ SortedLabels pt' ∧ pt'.data = pt.data ∧
      i ≤ pt.children.length ∧ pt'.children = pt.children.insertIdx i ("Label", k) ∧
      FrameIs k f ∧ k.data = .str value ∧
      (∀ c ∈ pt.children.take i, c.1 = "Label" → ∃ g ≤ f, FrameIs c.2 g) ∧
      ∀ c ∈ pt.children.drop i, c.1 = "Label" ∧ ∃ g > f, FrameIs c.2 g := by
  obtain ⟨pre, k1, k2, f1, f2, he, hpre, hk1, hk2, hr, hlt, hge, hub⟩ := labels_upperBound hc f
  unfold addLabel
  rw [hub]
  simp only
  unfold insertFrame
  rw [putFrame_new _ f h0]
  simp only
  refine ⟨_, _, _, rfl, ?_, rfl, ?_, rfl, frameIs_new _ f h0 h1, rfl, ?_, ?_⟩
  · unfold SortedLabels
    simp only [children_node]
    rw [he, insertIdx_append]
    exact sorted_insert hpre hk1 hk2 hr ⟨rfl, frameIs_new _ f h0 h1⟩ hlt
      (fun g hg => le_of_lt (not_le.1 (hge g hg)))
  · rw [he]; simp
  · rw [he, List.take_left']
    · intro c hc hct
      rcases List.mem_append.1 hc with h | h
      · exact absurd hct (hpre c h)
      · obtain ⟨g, hg, -, hgf⟩ := forall₂_mem_left hk1 c h
        exact ⟨g, hlt g hg, hgf⟩
    · rfl
  · rw [he, List.drop_left']
    · intro c hc
      obtain ⟨g, hg, h2, hgf⟩ := forall₂_mem_left hk2 c hc
      exact ⟨h2, g, not_le.1 (hge g hg), hgf⟩
    · rfl

/-- A key element with a frame. Helper of the proofs. Not in /repo: specification. -/
noncomputable def frameElem (f : ℤ) : PTree :=
  .node (.str "") [("<xmlattr>", .node (.str "") [("frame", .node (.num f) [])])]

/-- A curve with an attribute and the keys 1, 4 and 9. Helper of the proofs. Not in /repo:
specification. -/
noncomputable def threeKeys : PTree :=
  .node (.str "") [("<xmlattr>", .empty), ("Key", frameElem 1), ("Key", frameElem 4), ("Key", frameElem 9)]

theorem frameElem_is (f : ℤ) (h0 : 0 ≤ f) (h1 : f < 2 ^ 31) : FrameIs (frameElem f) f :=
  frameIs_new _ f h0 h1

theorem threeKeys_curve : Curve threeKeys :=
  ⟨[("<xmlattr>", .empty)], _, [1, 4, 9], rfl, by simp,
    .cons ⟨rfl, frameElem_is 1 (by norm_num) (by norm_num)⟩
      (.cons ⟨rfl, frameElem_is 4 (by norm_num) (by norm_num)⟩
        (.cons ⟨rfl, frameElem_is 9 (by norm_num) (by norm_num)⟩ .nil)), by simp⟩

example : Curve threeKeys ∧ KeyAt threeKeys 2 4 :=
  ⟨threeKeys_curve, _, rfl, rfl, frameElem_is 4 (by norm_num) (by norm_num)⟩

example : SortedLabels (.node (.str "") [("<xmlattr>", .empty), ("Label", frameElem 3),
    ("Label", frameElem 3)]) :=
  ⟨[("<xmlattr>", .empty)], _, [3, 3], rfl, by simp,
    .cons ⟨rfl, frameElem_is 3 (by norm_num) (by norm_num)⟩
      (.cons ⟨rfl, frameElem_is 3 (by norm_num) (by norm_num)⟩ .nil), by simp⟩

theorem getFrame_frameElem (f : ℤ) (h0 : 0 ≤ f) (h1 : f < 2 ^ 31) : getFrame (frameElem f) = .ok f :=
  (getFrame_iff _ _).2 (frameElem_is f h0 h1)

/-- A comment between two keys hides a key from `get_key_optional`: the search wants the elements
that are not keys before the keys. -/
theorem C52_comment_hides_key :
    let pt : PTree := .node (.str "") [("Key", frameElem 1), ("<xmlcomment>", .empty), ("Key", frameElem 3)]
    KeyAt pt 0 1 ∧ getKeyOptional pt 1 = .ok none := by
  have h3 := getFrame_frameElem 3 (by norm_num) (by norm_num)
  refine ⟨⟨_, rfl, rfl, frameElem_is 1 (by norm_num) (by norm_num)⟩, ?_⟩
  simp [getKeyOptional, PTree.children, lowerBound, keyComp, isFrameAt, h3, Res.map]

/-- With a comment between two keys, `require_key` creates a second key with the same frame. -/
theorem C52_comment_duplicates_key :
    let pt : PTree := .node (.str "") [("Key", frameElem 1), ("<xmlcomment>", .empty), ("Key", frameElem 3)]
    requireKey pt 1 = (.ok 2, .node (.str "") [("Key", frameElem 1), ("<xmlcomment>", .empty),
      ("Key", frameElem 1), ("Key", frameElem 3)]) := by
  have h3 := getFrame_frameElem 3 (by norm_num) (by norm_num)
  have h1 := putFrame_new (.str "") 1 (by norm_num)
  simp [requireKey, PTree.children, PTree.data, lowerBound, keyComp, isFrameAt, h3, Res.map, insertFrame,
    PTree.empty, h1]
  simp [frameElem]

/-- With a comment between two labels, `add_label` may break the order. -/
theorem C52_comment_breaks_order :
    let pt : PTree := .node (.str "") [("Label", frameElem 1), ("<xmlcomment>", .empty), ("Label", frameElem 3)]
    ∃ k, FrameIs k 0 ∧ addLabel pt 0 "x" = (.ok 2, .node (.str "") [("Label", frameElem 1),
      ("<xmlcomment>", .empty), ("Label", k), ("Label", frameElem 3)]) := by
  have h3 := getFrame_frameElem 3 (by norm_num) (by norm_num)
  have h1 := putFrame_new (.str "x") 0 (by norm_num)
  refine ⟨_, frameIs_new (.str "x") 0 (by norm_num) (by norm_num), ?_⟩
  simp [addLabel, PTree.children, PTree.data, upperBound, labelComp, h3, Res.map, insertFrame, h1]

/-! ### C53 -/

/-- `require_key` and `add_label` throw when the frame is negative, whatever the document. What is
missing: the document does not stay unchanged, see `C53_key_inserted` and `C53_label_inserted`. -/
theorem C53_throws_partial (pt : PTree) (f : ℤ) (hf : f < 0) (value : String) :
    (requireKey pt f).1 = .throws ∧ (addLabel pt f value).1 = .throws := by
  constructor
  · unfold requireKey
    have h := lowerBound_ne_ub (l := pt.children) (keyComp_ne_ub f) pt.children.length 0 (by omega)
    cases hlb : lowerBound (keyComp f) pt.children 0 pt.children.length with
    | ok it =>
      simp only
      have hne : isFrameAt pt it f ≠ .ok true ∧ isFrameAt pt it f ≠ .ub := by
        unfold isFrameAt
        cases hc : pt.children[it]? with
        | none => simp
        | some c =>
          simp only
          cases hg : getFrame c.2 with
          | ok g =>
            have := ((getFrame_iff _ _).1 hg).2.1
            simp only [Res.map, ne_eq, Res.ok.injEq, decide_eq_true_eq, reduceCtorEq, not_false_eq_true,
              and_true]
            omega
          | throws => simp [Res.map]
          | ub => exact absurd hg (getFrame_ne_ub _)
      cases hb : isFrameAt pt it f with
      | ok b =>
        cases b with
        | true => exact absurd hb hne.1
        | false =>
          simp only
          unfold insertFrame putFrame
          rw [if_pos hf]
      | throws => rfl
      | ub => exact absurd hb hne.2
    | throws => rfl
    | ub => exact absurd hlb h.1
  · unfold addLabel
    have h := upperBound_ne_ub (l := pt.children) (labelComp_ne_ub f) pt.children.length 0 (by omega)
    cases hub : upperBound (labelComp f) pt.children 0 pt.children.length with
    | ok it =>
      simp only
      unfold insertFrame putFrame
      rw [if_pos hf]
    | throws => rfl
    | ub => exact absurd hub h.1

/-- On every curve, `require_key` of a negative frame leaves a new key without frame before the
keys. -/
theorem C53_key_inserted (pt : PTree) (hc : Curve pt) (f : ℤ) (hf : f < 0) :
    ∃ pre ks, pt.children = pre ++ ks ∧ (∀ c ∈ pre, c.1 ≠ "Key") ∧ (∀ c ∈ ks, c.1 = "Key") ∧
      requireKey pt f = (.throws, .node pt.data (pre ++ ("Key", .empty) :: ks)) := by
  obtain ⟨pre, k1, k2, f1, f2, he, hpre, hk1, hk2, hr, hlt, hge, hlb⟩ := curve_lowerBound hc f
  have hk1' : k1 = [] := by
    cases hk1 with
    | nil => rfl
    | @cons c g _ _ h _ =>
      have h1 := hlt g (by simp)
      have h2 := h.2.2.1
      omega
  subst hk1'
  refine ⟨pre, k2, by simpa using he, hpre, ?_, ?_⟩
  · intro c hc
    obtain ⟨g, -, h, -⟩ := forall₂_mem_left hk2 c hc
    exact h
  · unfold requireKey
    rw [hlb]
    simp only
    have hno : isFrameAt pt (pre ++ []).length f = .ok false := by
      rcases curve_found he hpre hk1 hk2 hr hlt hge with ⟨h2, h3⟩ | ⟨h2, -⟩
      · obtain ⟨c, -, -, hcf⟩ := (h3 _).2 rfl
        have := hcf.2.1
        omega
      · exact h2
    rw [hno]
    simp only
    unfold insertFrame putFrame
    rw [if_pos hf]
    simp only
    rw [he, insertIdx_append, List.append_nil]

/-- With sorted labels, `add_label` of a negative frame leaves a new label without frame before the
labels. -/
theorem C53_label_inserted (pt : PTree) (hc : SortedLabels pt) (f : ℤ) (value : String) (hf : f < 0) :
    ∃ pre ks, pt.children = pre ++ ks ∧ (∀ c ∈ pre, c.1 ≠ "Label") ∧ (∀ c ∈ ks, c.1 = "Label") ∧
      addLabel pt f value =
        (.throws, .node pt.data (pre ++ ("Label", .node (.str value) []) :: ks)) := by
  obtain ⟨pre, k1, k2, f1, f2, he, hpre, hk1, hk2, hr, hlt, hge, hub⟩ := labels_upperBound hc f
  have hk1' : k1 = [] := by
    cases hk1 with
    | nil => rfl
    | @cons c g _ _ h _ =>
      have h1 := hlt g (by simp)
      have h2 := h.2.2.1
      omega
  subst hk1'
  refine ⟨pre, k2, by simpa using he, hpre, ?_, ?_⟩
  · intro c hc
    obtain ⟨g, -, h, -⟩ := forall₂_mem_left hk2 c hc
    exact h
  · unfold addLabel
    rw [hub]
    simp only
    unfold insertFrame putFrame
    rw [if_pos hf]
    simp only
    rw [he, insertIdx_append, List.append_nil]

/-- After such a refused call, a key that is in the curve cannot be found any more. -/
theorem C53_curve_broken :
    let pt : PTree := .node (.str "") [("Key", frameElem 5)]
    let pt' := (requireKey pt (-1)).2
    getKeyOptional pt 5 = .ok (some 0) ∧ getKeyOptional pt' 5 = .throws := by
  have h5 := getFrame_frameElem 5 (by norm_num) (by norm_num)
  have he : getFrame PTree.empty = .throws := by
    simp [getFrame, PTree.attr, PTree.find, PTree.empty, PTree.children, mandatory]
  have hp : putFrame PTree.empty (-1) = .throws := by
    unfold putFrame; rw [if_pos (by norm_num)]
  constructor
  · simp [getKeyOptional, PTree.children, lowerBound, keyComp, isFrameAt, h5, Res.map]
  · simp [requireKey, getKeyOptional, PTree.children, lowerBound, keyComp, isFrameAt, h5, Res.map,
      insertFrame, hp, he]

end AlMath
