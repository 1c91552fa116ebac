import Verif.Model.Io

/-!
C74: what is printed for positions, velocities, rotations and transforms.
-/

namespace AlMath.Io

namespace Spec

/-- Only spaces. Not in /repo: specification. -/
def Spaces (t : List Char) : Prop := ∀ c ∈ t, c = ' '

/-- A key, a colon and a value, maybe with spaces around the value. Not in /repo: specification. -/
inductive Field : List Char × List Char → List Char → Prop
  | mk (k v a b : List Char) (ha : Spaces a) (hb : Spaces b) : Field (k, v) (k ++ ':' :: (a ++ (v ++ b)))

/-- Fields separated by commas, maybe with spaces after them, and a closing brace. Not in /repo:
specification. -/
inductive Fields : List (List Char × List Char) → List Char → Prop
  | last (f : List Char × List Char) (t : List Char) (h : Field f t) : Fields [f] (t ++ ['}'])
  | cons (f : List Char × List Char) (t sp : List Char) (fs : List (List Char × List Char))
      (r : List Char) (h : Field f t) (hsp : Spaces sp) (hr : Fields fs r) :
      Fields (f :: fs) (t ++ ',' :: (sp ++ r))

/-- Fields between braces. Not in /repo: specification. -/
def Record (fs : List (List Char × List Char)) (t : List Char) : Prop := ∃ r, t = '{' :: r ∧ Fields fs r

/-- Words with one space between them, and a line feed. Not in /repo: specification. -/
def line : List (List Char) → List Char
  | [] => ['\n']
  | [w] => w ++ ['\n']
  | w :: ws => w ++ ' ' :: line ws

/-- Lines of words. Not in /repo: specification. -/
def rows (l : List (List (List Char))) : List Char := (l.map line).flatten

/-- At least one character, and none of those the formats use. Not in /repo: specification. -/
def Clean (v : List Char) : Prop := v ≠ [] ∧ ∀ c ∈ v, c ∉ [' ', '\n', ',', ':', '{', '}']

/-- Words with one space between them. Not in /repo: specification. -/
def spaced : List (List Char) → List Char
  | [] => []
  | [w] => w
  | w :: ws => w ++ ' ' :: spaced ws

/-- The flags while something is printed. Not in /repo: specification. -/
def shown : Flags := ⟨true, true, true⟩

end Spec

open Spec

/-- Two texts cut at the first character with some property. -/
theorem cut_unique {P : Char → Prop} {u u' r r' : List Char} {c c' : Char} (hu : ∀ x ∈ u, ¬ P x)
    (hu' : ∀ x ∈ u', ¬ P x) (hc : P c) (hc' : P c') (h : u ++ c :: r = u' ++ c' :: r') :
    u = u' ∧ c = c' ∧ r = r' := by
  induction u generalizing u' with
  | nil =>
    cases u' with
    | nil => simpa using h
    | cons y u' =>
      simp only [List.nil_append, List.cons_append, List.cons.injEq] at h
      exact absurd (h.1 ▸ hc) (hu' y (by simp))
  | cons x u ih =>
    cases u' with
    | nil =>
      simp only [List.nil_append, List.cons_append, List.cons.injEq] at h
      exact absurd (h.1 ▸ hc') (hu x (by simp))
    | cons y u' =>
      simp only [List.cons_append, List.cons.injEq] at h
      obtain ⟨e1, e2, e3⟩ := ih (fun z hz => hu z (by simp [hz])) (fun z hz => hu' z (by simp [hz])) h.2
      exact ⟨by rw [h.1, e1], e2, e3⟩

theorem field_unique {f g : List Char × List Char} {t t' r r' : List Char} {c c' : Char}
    (hf : Field f t) (hg : Field g t') (h1 : Clean f.1 ∧ Clean f.2) (h2 : Clean g.1 ∧ Clean g.2)
    (hc : c = ',' ∨ c = '}') (hc' : c' = ',' ∨ c' = '}') (h : t ++ c :: r = t' ++ c' :: r') :
    f = g ∧ c = c' ∧ r = r' := by
  obtain ⟨k, v, a, b, ha, hb⟩ := hf
  obtain ⟨k', v', a', b', ha', hb'⟩ := hg
  simp only [List.append_assoc, List.cons_append] at h
  have cl : ∀ {w : List Char}, Clean w → ∀ {d : Char}, d ∈ [' ', '\n', ',', ':', '{', '}'] →
      ∀ x ∈ w, ¬ x = d := fun hw d hd x hx e => hw.2 x hx (e ▸ hd)
  obtain ⟨ek, -, h⟩ := cut_unique (P := fun x => x = ':') (cl h1.1 (by simp)) (cl h2.1 (by simp)) rfl rfl h
  obtain ⟨y, v, rfl⟩ := List.exists_cons_of_ne_nil h1.2.1
  obtain ⟨y', v', rfl⟩ := List.exists_cons_of_ne_nil h2.2.1
  simp only [List.cons_append] at h
  obtain ⟨-, ey, h⟩ := cut_unique (P := fun x => x ≠ ' ') (fun x hx => not_not.2 (ha x hx))
    (fun x hx => not_not.2 (ha' x hx)) (cl h1.2 (by simp) y (by simp)) (cl h2.2 (by simp) y' (by simp)) h
  have end_ : ∀ {b r : List Char} {c : Char}, Spaces b → (c = ',' ∨ c = '}') →
      ∃ d r', b ++ c :: r = d :: r' ∧ d ∈ [' ', ',', '}'] := by
    intro b r c hb hc
    cases b with
    | nil => exact ⟨c, r, rfl, by rcases hc with rfl | rfl <;> simp⟩
    | cons d b => exact ⟨d, b ++ c :: r, rfl, by simp [hb d (by simp)]⟩
  have hv : v = v' ∧ b ++ c :: r = b' ++ c' :: r' := by
    obtain ⟨d, q, e, hd⟩ := end_ (r := r) hb hc
    obtain ⟨d', q', e', hd'⟩ := end_ (r := r') hb' hc'
    rw [e, e'] at h
    obtain ⟨e1, e2, e3⟩ := cut_unique (P := fun x => x ∈ [' ', ',', '}'])
      (fun x hx h => h1.2.2 x (by simp [hx]) (by simp at h ⊢; tauto))
      (fun x hx h => h2.2.2 x (by simp [hx]) (by simp at h ⊢; tauto)) hd hd' h
    rw [e, e', e2, e3]
    exact ⟨e1, rfl⟩
  obtain ⟨-, ec, er⟩ := cut_unique (P := fun x => x ≠ ' ') (fun x hx => not_not.2 (hb x hx))
    (fun x hx => not_not.2 (hb' x hx)) (by rcases hc with rfl | rfl <;> decide)
    (by rcases hc' with rfl | rfl <;> decide) hv.2
  exact ⟨Prod.ext ek (by rw [ey, hv.1]), ec, er⟩

theorem fields_unique {fs gs : List (List Char × List Char)} {t : List Char} (hf : Fields fs t)
    (hg : Fields gs t) (h1 : ∀ f ∈ fs, Clean f.1 ∧ Clean f.2) (h2 : ∀ f ∈ gs, Clean f.1 ∧ Clean f.2) :
    fs = gs := by
  have skip : ∀ {fs : List (List Char × List Char)} {t : List Char}, Fields fs t →
      (∀ f ∈ fs, Clean f.1 ∧ Clean f.2) → ∃ c t', t = c :: t' ∧ c ≠ ' ' := by
    intro fs t h hc
    have : ∀ {f : List Char × List Char} {t : List Char}, Field f t → Clean f.1 →
        ∃ c t', t = c :: t' ∧ c ≠ ' ' := by
      rintro f t ⟨k, v, a, b, -, -⟩ hk
      obtain ⟨c, k, rfl⟩ := List.exists_cons_of_ne_nil hk.1
      exact ⟨c, _, rfl, fun e => hk.2 c (by simp) (by simp [e])⟩
    cases h with
    | last f t h =>
      obtain ⟨c, t', rfl, h'⟩ := this h (hc f (by simp)).1
      exact ⟨c, _, rfl, h'⟩
    | cons f t sp fs r h _ _ =>
      obtain ⟨c, t', rfl, h'⟩ := this h (hc f (by simp)).1
      exact ⟨c, _, rfl, h'⟩
  induction hf generalizing gs with
  | last f t hf =>
    generalize e : t ++ ['}'] = u at hg
    cases hg with
    | last g t' hg => rw [(field_unique hf hg (h1 f (by simp)) (h2 g (by simp)) (.inr rfl) (.inr rfl) e).1]
    | cons g t' sp gs r hg =>
      exact absurd (field_unique hf hg (h1 f (by simp)) (h2 g (by simp)) (.inr rfl) (.inl rfl) e).2.1 (by decide)
  | cons f t sp fs r hf hsp hr ih =>
    generalize e : t ++ ',' :: (sp ++ r) = u at hg
    cases hg with
    | last g t' hg =>
      exact absurd (field_unique hf hg (h1 f (by simp)) (h2 g (by simp)) (.inl rfl) (.inr rfl) e).2.1 (by decide)
    | cons g t' sp' gs r' hg hsp' hr' =>
      obtain ⟨e1, -, e2⟩ := field_unique hf hg (h1 f (by simp)) (h2 g (by simp)) (.inl rfl) (.inl rfl) e
      obtain ⟨c, q, rfl, hc⟩ := skip hr fun f hf => h1 f (by simp [hf])
      obtain ⟨c', q', rfl, hc'⟩ := skip hr' fun f hf => h2 f (by simp [hf])
      obtain ⟨-, e3, e4⟩ := cut_unique (P := fun x => x ≠ ' ') (fun x hx => not_not.2 (hsp x hx))
        (fun x hx => not_not.2 (hsp' x hx)) hc hc' e2
      subst e3 e4
      rw [e1, ih hr' (fun f hf => h1 f (by simp [hf])) fun f hf => h2 f (by simp [hf])]

/-- The format of records is not ambiguous: the same text comes from the same keys and the same
values, in the same order. -/
theorem C74_record_unique {fs gs : List (List Char × List Char)} {t : List Char} (hf : Record fs t)
    (hg : Record gs t) (h1 : ∀ f ∈ fs, Clean f.1 ∧ Clean f.2) (h2 : ∀ f ∈ gs, Clean f.1 ∧ Clean f.2) :
    fs = gs := by
  obtain ⟨r, rfl, hf⟩ := hf
  obtain ⟨r', e, hg⟩ := hg
  rw [List.cons.injEq] at e
  exact fields_unique hf (e.2 ▸ hg) h1 h2

theorem line_cons (w w' : List Char) (ws : List (List Char)) :
    line (w :: w' :: ws) = w ++ ' ' :: line (w' :: ws) := rfl

theorem line_unique {l m : List (List Char)} {r r' : List Char} (hl : l ≠ []) (hm : m ≠ [])
    (h1 : ∀ w ∈ l, Clean w) (h2 : ∀ w ∈ m, Clean w) (h : line l ++ r = line m ++ r') : l = m ∧ r = r' := by
  have cl : ∀ {w : List Char}, Clean w → ∀ x ∈ w, ¬ (x = ' ' ∨ x = '\n') := fun hw x hx e =>
    hw.2 x hx (by simp; tauto)
  induction l generalizing m with
  | nil => exact absurd rfl hl
  | cons w l ih =>
    cases m with
    | nil => exact absurd rfl hm
    | cons w' m =>
      cases l with
      | nil =>
        cases m with
        | nil =>
          simp only [line, List.append_assoc, List.singleton_append] at h
          obtain ⟨e1, -, e2⟩ := cut_unique (cl (h1 w (by simp))) (cl (h2 w' (by simp))) (.inr rfl) (.inr rfl) h
          exact ⟨by rw [e1], e2⟩
        | cons w'' m =>
          rw [line_cons] at h
          simp only [line, List.append_assoc, List.singleton_append, List.cons_append] at h
          exact absurd (cut_unique (cl (h1 w (by simp))) (cl (h2 w' (by simp))) (.inr rfl) (.inl rfl) h).2.1
            (by decide)
      | cons w2 l =>
        cases m with
        | nil =>
          rw [line_cons] at h
          simp only [line, List.append_assoc, List.singleton_append, List.cons_append] at h
          exact absurd (cut_unique (cl (h1 w (by simp))) (cl (h2 w' (by simp))) (.inl rfl) (.inr rfl) h).2.1
            (by decide)
        | cons w'' m =>
          rw [line_cons, line_cons] at h
          simp only [List.append_assoc, List.cons_append] at h
          obtain ⟨e1, -, e2⟩ := cut_unique (cl (h1 w (by simp))) (cl (h2 w' (by simp))) (.inl rfl) (.inl rfl) h
          obtain ⟨e3, e4⟩ := ih (m := w'' :: m) (by simp) (by simp) (fun x hx => h1 x (by simp [hx]))
            (fun x hx => h2 x (by simp at hx; simp; tauto)) e2
          exact ⟨by rw [e1, e3], e4⟩

/-- The format of matrices is not ambiguous. -/
theorem C74_rows_unique {l m : List (List (List Char))} (h1 : ∀ r ∈ l, r ≠ [] ∧ ∀ w ∈ r, Clean w)
    (h2 : ∀ r ∈ m, r ≠ [] ∧ ∀ w ∈ r, Clean w) (h : rows l = rows m) : l = m := by
  have ne : ∀ l : List (List Char), line l ≠ [] := by
    intro l
    match l with
    | [] => simp [line]
    | [w] => simp [line]
    | w :: w' :: ws => simp [line_cons]
  induction l generalizing m with
  | nil =>
    cases m with
    | nil => rfl
    | cons r m => exact absurd h.symm (by simp [rows, ne])
  | cons r l ih =>
    cases m with
    | nil => exact absurd h (by simp [rows, ne])
    | cons r' m =>
      simp only [rows, List.map_cons, List.flatten_cons] at h
      obtain ⟨e1, e2⟩ := line_unique (h1 r (by simp)).1 (h2 r' (by simp)).1 (h1 r (by simp)).2 (h2 r' (by simp)).2 h
      rw [e1, ih (fun r hr => h1 r (by simp [hr])) (fun r hr => h2 r (by simp [hr])) e2]

theorem fields_last (k v a b : List Char) (ha : Spaces a) (hb : Spaces b) :
    Fields [(k, v)] (k ++ ':' :: (a ++ (v ++ (b ++ ['}'])))) := by
  have := Fields.last _ _ (Spec.Field.mk k v a b ha hb)
  simpa using this

theorem fields_cons (k v a b sp : List Char) {fs : List (List Char × List Char)} {r : List Char}
    (ha : Spaces a) (hb : Spaces b) (hsp : Spaces sp) (hr : Fields fs r) :
    Fields ((k, v) :: fs) (k ++ ':' :: (a ++ (v ++ (b ++ ',' :: (sp ++ r))))) := by
  have := Fields.cons _ _ sp _ _ (Spec.Field.mk k v a b ha hb) hsp hr
  simpa using this

variable (fmt : Flags → ℝ → List Char)

theorem putAll_flags (s : Stream) (l : List Item) : (s.putAll fmt l).flags = s.flags := by
  induction l generalizing s with
  | nil => rfl
  | cons i l ih =>
    rw [Stream.putAll, List.foldl_cons]
    refine (ih _).trans ?_
    cases i <;> rfl

theorem putAll_append (s : Stream) (l m : List Item) : s.putAll fmt (l ++ m) = (s.putAll fmt l).putAll fmt m :=
  List.foldl_append


theorem putPose2D_text (s : Stream) (p : Pose2D) : ∃ t, putPose2D fmt s p = ⟨shown, s.text ++ t⟩ ∧
    Record [("x".toList, fmt shown p.x), ("y".toList, fmt shown p.y), ("theta".toList, fmt shown p.theta)] t := by
  refine ⟨_, Stream.ext rfl ?_, _, rfl, fields_cons ['x'] (fmt shown p.x) [' '] [] [' '] (by simp [Spaces]) (by simp [Spaces]) (by simp [Spaces])
      (fields_cons ['y'] (fmt shown p.y) [] [] [' '] (by simp [Spaces]) (by simp [Spaces]) (by simp [Spaces])
      (fields_last ['t', 'h', 'e', 't', 'a'] (fmt shown p.theta) [] [] (by simp [Spaces]) (by simp [Spaces])))⟩
  simp [putPose2D, Stream.putAll, Stream.put, Stream.setf, shown]

theorem putPosition2D_text (s : Stream) (p : Position2D) : ∃ t, putPosition2D fmt s p = ⟨shown, s.text ++ t⟩ ∧
    Record [("x".toList, fmt shown p.x), ("y".toList, fmt shown p.y)] t := by
  refine ⟨_, Stream.ext rfl ?_, _, rfl, fields_cons ['x'] (fmt shown p.x) [' '] [] [' '] (by simp [Spaces]) (by simp [Spaces]) (by simp [Spaces])
      (fields_last ['y'] (fmt shown p.y) [] [] (by simp [Spaces]) (by simp [Spaces]))⟩
  simp [putPosition2D, Stream.putAll, Stream.put, Stream.setf, shown]

theorem putPosition3D_text (s : Stream) (p : Position3D) : ∃ t, putPosition3D fmt s p = ⟨shown, s.text ++ t⟩ ∧
    Record [("x".toList, fmt shown p.x), ("y".toList, fmt shown p.y), ("z".toList, fmt shown p.z)] t := by
  refine ⟨_, Stream.ext rfl ?_, _, rfl, fields_cons ['x'] (fmt shown p.x) [' '] [] [' '] (by simp [Spaces]) (by simp [Spaces]) (by simp [Spaces])
      (fields_cons ['y'] (fmt shown p.y) [] [] [' '] (by simp [Spaces]) (by simp [Spaces]) (by simp [Spaces])
      (fields_last ['z'] (fmt shown p.z) [] [] (by simp [Spaces]) (by simp [Spaces])))⟩
  simp [putPosition3D, Stream.putAll, Stream.put, Stream.setf, shown]

theorem putPosition6D_text (s : Stream) (p : Position6D) : ∃ t, putPosition6D fmt s p = ⟨shown, s.text ++ t⟩ ∧
    Record [("x".toList, fmt shown p.x), ("y".toList, fmt shown p.y), ("z".toList, fmt shown p.z), ("wx".toList, fmt shown p.wx), ("wy".toList, fmt shown p.wy), ("wz".toList, fmt shown p.wz)] t := by
  refine ⟨_, Stream.ext rfl ?_, _, rfl, fields_cons ['x'] (fmt shown p.x) [' '] [] [' '] (by simp [Spaces]) (by simp [Spaces]) (by simp [Spaces])
      (fields_cons ['y'] (fmt shown p.y) [' '] [] [' '] (by simp [Spaces]) (by simp [Spaces]) (by simp [Spaces])
      (fields_cons ['z'] (fmt shown p.z) [' '] [] [' '] (by simp [Spaces]) (by simp [Spaces]) (by simp [Spaces])
      (fields_cons ['w', 'x'] (fmt shown p.wx) [' '] [] [' '] (by simp [Spaces]) (by simp [Spaces]) (by simp [Spaces])
      (fields_cons ['w', 'y'] (fmt shown p.wy) [' '] [] [' '] (by simp [Spaces]) (by simp [Spaces]) (by simp [Spaces])
      (fields_last ['w', 'z'] (fmt shown p.wz) [' '] [] (by simp [Spaces]) (by simp [Spaces]))))))⟩
  simp [putPosition6D, Stream.putAll, Stream.put, Stream.setf, shown]

theorem putPositionAndVelocity_text (s : Stream) (p : PositionAndVelocity) : ∃ t, putPositionAndVelocity fmt s p = ⟨shown, s.text ++ t⟩ ∧
    Record [("q".toList, fmt shown p.q), ("dq".toList, fmt shown p.dq)] t := by
  refine ⟨_, Stream.ext rfl ?_, _, rfl, fields_cons ['q'] (fmt shown p.q) [' '] [] [' '] (by simp [Spaces]) (by simp [Spaces]) (by simp [Spaces])
      (fields_last ['d', 'q'] (fmt shown p.dq) [' '] [] (by simp [Spaces]) (by simp [Spaces]))⟩
  simp [putPositionAndVelocity, Stream.putAll, Stream.put, Stream.setf, shown]

theorem putRotation3D_text (s : Stream) (p : Rotation3D) : ∃ t, putRotation3D fmt s p = ⟨shown, s.text ++ t⟩ ∧
    Record [("wx".toList, fmt shown p.wx), ("wy".toList, fmt shown p.wy), ("wz".toList, fmt shown p.wz)] t := by
  refine ⟨_, Stream.ext rfl ?_, _, rfl, fields_cons ['w', 'x'] (fmt shown p.wx) [' '] [' '] [] (by simp [Spaces]) (by simp [Spaces]) (by simp [Spaces])
      (fields_cons ['w', 'y'] (fmt shown p.wy) [' '] [' '] [] (by simp [Spaces]) (by simp [Spaces]) (by simp [Spaces])
      (fields_last ['w', 'z'] (fmt shown p.wz) [' '] [] (by simp [Spaces]) (by simp [Spaces])))⟩
  simp [putRotation3D, Stream.putAll, Stream.put, Stream.setf, shown]

theorem putQuaternion_text (s : Stream) (p : Quat) : ∃ t, putQuaternion fmt s p = ⟨shown, s.text ++ t⟩ ∧
    Record [("w".toList, fmt shown p.w), ("x".toList, fmt shown p.x), ("y".toList, fmt shown p.y), ("z".toList, fmt shown p.z)] t := by
  refine ⟨_, Stream.ext rfl ?_, _, rfl, fields_cons ['w'] (fmt shown p.w) [' '] [] [' '] (by simp [Spaces]) (by simp [Spaces]) (by simp [Spaces])
      (fields_cons ['x'] (fmt shown p.x) [] [] [' '] (by simp [Spaces]) (by simp [Spaces]) (by simp [Spaces])
      (fields_cons ['y'] (fmt shown p.y) [] [] [' '] (by simp [Spaces]) (by simp [Spaces]) (by simp [Spaces])
      (fields_last ['z'] (fmt shown p.z) [] [] (by simp [Spaces]) (by simp [Spaces]))))⟩
  simp [putQuaternion, Stream.putAll, Stream.put, Stream.setf, shown]

theorem putVelocity3D_text (s : Stream) (p : Velocity3D) : ∃ t, putVelocity3D fmt s p = ⟨shown, s.text ++ t⟩ ∧
    Record [("xd".toList, fmt shown p.xd), ("yd".toList, fmt shown p.yd), ("zd".toList, fmt shown p.zd)] t := by
  refine ⟨_, Stream.ext rfl ?_, _, rfl, fields_cons ['x', 'd'] (fmt shown p.xd) [' '] [] [' '] (by simp [Spaces]) (by simp [Spaces]) (by simp [Spaces])
      (fields_cons ['y', 'd'] (fmt shown p.yd) [] [] [' '] (by simp [Spaces]) (by simp [Spaces]) (by simp [Spaces])
      (fields_last ['z', 'd'] (fmt shown p.zd) [] [] (by simp [Spaces]) (by simp [Spaces])))⟩
  simp [putVelocity3D, Stream.putAll, Stream.put, Stream.setf, shown]

theorem putVelocity6D_text (s : Stream) (p : Velocity6D) : ∃ t, putVelocity6D fmt s p = ⟨shown, s.text ++ t⟩ ∧
    Record [("xd".toList, fmt shown p.xd), ("yd".toList, fmt shown p.yd), ("zd".toList, fmt shown p.zd), ("wxd".toList, fmt shown p.wxd), ("wyd".toList, fmt shown p.wyd), ("wzd".toList, fmt shown p.wzd)] t := by
  refine ⟨_, Stream.ext rfl ?_, _, rfl, fields_cons ['x', 'd'] (fmt shown p.xd) [' '] [' '] [] (by simp [Spaces]) (by simp [Spaces]) (by simp [Spaces])
      (fields_cons ['y', 'd'] (fmt shown p.yd) [' '] [' '] [] (by simp [Spaces]) (by simp [Spaces]) (by simp [Spaces])
      (fields_cons ['z', 'd'] (fmt shown p.zd) [' '] [' '] [] (by simp [Spaces]) (by simp [Spaces]) (by simp [Spaces])
      (fields_cons ['w', 'x', 'd'] (fmt shown p.wxd) [' '] [' '] [] (by simp [Spaces]) (by simp [Spaces]) (by simp [Spaces])
      (fields_cons ['w', 'y', 'd'] (fmt shown p.wyd) [' '] [' '] [] (by simp [Spaces]) (by simp [Spaces]) (by simp [Spaces])
      (fields_last ['w', 'z', 'd'] (fmt shown p.wzd) [' '] [] (by simp [Spaces]) (by simp [Spaces]))))))⟩
  simp [putVelocity6D, Stream.putAll, Stream.put, Stream.setf, shown]

/-- What is appended to the stream is a record with these keys and values, in this order, the numbers being
printed with the three flags. The flags stay set. -/
theorem C74_records (s : Stream) :
    (∀ p : Pose2D, ∃ t, putPose2D fmt s p = ⟨shown, s.text ++ t⟩ ∧ Record
      [("x".toList, fmt shown p.x), ("y".toList, fmt shown p.y), ("theta".toList, fmt shown p.theta)] t) ∧
    (∀ p : Position2D, ∃ t, putPosition2D fmt s p = ⟨shown, s.text ++ t⟩ ∧ Record
      [("x".toList, fmt shown p.x), ("y".toList, fmt shown p.y)] t) ∧
    (∀ p : Position3D, ∃ t, putPosition3D fmt s p = ⟨shown, s.text ++ t⟩ ∧ Record
      [("x".toList, fmt shown p.x), ("y".toList, fmt shown p.y), ("z".toList, fmt shown p.z)] t) ∧
    (∀ p : Position6D, ∃ t, putPosition6D fmt s p = ⟨shown, s.text ++ t⟩ ∧ Record
      [("x".toList, fmt shown p.x), ("y".toList, fmt shown p.y), ("z".toList, fmt shown p.z),
      ("wx".toList, fmt shown p.wx), ("wy".toList, fmt shown p.wy), ("wz".toList, fmt shown p.wz)] t) ∧
    (∀ p : PositionAndVelocity, ∃ t, putPositionAndVelocity fmt s p = ⟨shown, s.text ++ t⟩ ∧ Record
      [("q".toList, fmt shown p.q), ("dq".toList, fmt shown p.dq)] t) ∧
    (∀ p : Rotation3D, ∃ t, putRotation3D fmt s p = ⟨shown, s.text ++ t⟩ ∧ Record
      [("wx".toList, fmt shown p.wx), ("wy".toList, fmt shown p.wy), ("wz".toList, fmt shown p.wz)] t) ∧
    (∀ p : Quat, ∃ t, putQuaternion fmt s p = ⟨shown, s.text ++ t⟩ ∧ Record
      [("w".toList, fmt shown p.w), ("x".toList, fmt shown p.x), ("y".toList, fmt shown p.y),
      ("z".toList, fmt shown p.z)] t) ∧
    (∀ p : Velocity3D, ∃ t, putVelocity3D fmt s p = ⟨shown, s.text ++ t⟩ ∧ Record
      [("xd".toList, fmt shown p.xd), ("yd".toList, fmt shown p.yd), ("zd".toList, fmt shown p.zd)] t) ∧
    (∀ p : Velocity6D, ∃ t, putVelocity6D fmt s p = ⟨shown, s.text ++ t⟩ ∧ Record
      [("xd".toList, fmt shown p.xd), ("yd".toList, fmt shown p.yd), ("zd".toList, fmt shown p.zd),
      ("wxd".toList, fmt shown p.wxd), ("wyd".toList, fmt shown p.wyd), ("wzd".toList, fmt shown p.wzd)] t) :=
  ⟨putPose2D_text fmt s, putPosition2D_text fmt s, putPosition3D_text fmt s, putPosition6D_text fmt s, putPositionAndVelocity_text fmt s, putRotation3D_text fmt s, putQuaternion_text fmt s, putVelocity3D_text fmt s, putVelocity6D_text fmt s⟩

/-- Matrices are printed by rows, transforms with a last row; a transform with a velocity is the
transform followed by the record of the velocity. -/
theorem C74_matrices (s : Stream) :
    (∀ p : Rotation, putRotation fmt s p = ⟨shown, s.text ++ rows
      [[p.r11, p.r12, p.r13].map (fmt shown), [p.r21, p.r22, p.r23].map (fmt shown),
        [p.r31, p.r32, p.r33].map (fmt shown)]⟩) ∧
    (∀ p : Transform, putTransform fmt s p = ⟨shown, s.text ++ rows
      [[p.r11, p.r12, p.r13, p.r14].map (fmt shown), [p.r21, p.r22, p.r23, p.r24].map (fmt shown),
        [p.r31, p.r32, p.r33, p.r34].map (fmt shown), ["0.0", "0.0", "0.0", "1.0"].map String.toList]⟩) ∧
    ∀ p : TransformAndVelocity6D, putTransformAndVelocity6D fmt s p =
      putVelocity6D fmt (putTransform fmt s p.T) p.V := by
  refine ⟨fun p => Stream.ext rfl ?_, fun p => Stream.ext rfl ?_, fun p => ?_⟩
  · simp [putRotation, Stream.putAll, Stream.put, Stream.setf, shown, rows, line]
  · simp [putTransform, Stream.putAll, Stream.put, Stream.setf, shown, rows, line]
  · have : (putTransform fmt s p.T).setf = putTransform fmt s p.T := by
      refine Stream.ext ?_ rfl
      rw [putTransform, putAll_flags]
      rfl
    rw [putVelocity6D, this, putTransform, ← putAll_append]
    rfl

/-- What was printed tells the printed numbers, whatever was printed before and the flags of the two
streams. -/
theorem C74_determines (hfmt : ∀ x, Clean (fmt shown x)) (s s' : Stream) (hs : s.text = s'.text) :
    (∀ p q : Position6D, (putPosition6D fmt s p).text = (putPosition6D fmt s' q).text →
      [p.x, p.y, p.z, p.wx, p.wy, p.wz].map (fmt shown) =
        [q.x, q.y, q.z, q.wx, q.wy, q.wz].map (fmt shown)) ∧
    ∀ p q : Transform, (putTransform fmt s p).text = (putTransform fmt s' q).text →
      [p.r11, p.r12, p.r13, p.r14, p.r21, p.r22, p.r23, p.r24, p.r31, p.r32, p.r33, p.r34].map (fmt shown) =
      [q.r11, q.r12, q.r13, q.r14, q.r21, q.r22, q.r23, q.r24, q.r31, q.r32, q.r33, q.r34].map
        (fmt shown) := by
  have c1 : Clean ['x'] ∧ Clean ['y'] ∧ Clean ['z'] ∧ Clean ['w', 'x'] ∧ Clean ['w', 'y'] ∧
      Clean ['w', 'z'] ∧ Clean ['0', '.', '0'] ∧ Clean ['1', '.', '0'] := by simp [Clean]
  constructor
  · intro p q h
    obtain ⟨t, e, ht⟩ := putPosition6D_text fmt s p
    obtain ⟨t', e', ht'⟩ := putPosition6D_text fmt s' q
    rw [e, e', hs] at h
    have h : t = t' := List.append_cancel_left h
    subst h
    have := C74_record_unique ht ht' (by simp [hfmt, c1]) (by simp [hfmt, c1])
    simpa using this
  · intro p q h
    rw [(C74_matrices fmt s).2.1, (C74_matrices fmt s').2.1, hs] at h
    have := C74_rows_unique (by simp [hfmt, c1]) (by simp [hfmt, c1]) (List.append_cancel_left h)
    simpa [and_assoc] using this

/-- Printing leaves the flags of the stream changed: a number printed afterwards is not printed as
before. -/
theorem C74_sticky (s : Stream) (p : Position3D) (x : ℝ) (h : fmt s.flags x ≠ fmt shown x) :
    ((putPosition3D fmt s p).put fmt (.n x)).text ≠ (putPosition3D fmt s p).text ++ fmt s.flags x := by
  intro e
  exact h (List.append_cancel_left (e : (putPosition3D fmt s p).text ++ fmt shown x = _)).symm

/-- None of the texts of `toSpaceSeparated` is made of the numbers separated by spaces. -/
theorem C74_not_space_separated (hfmt : ∀ x, Clean (fmt shown x)) :
    (∀ p : Position3D, spaceSeparatedPosition3D fmt p ≠ spaced ([p.x, p.y, p.z].map (fmt shown))) ∧
    (∀ p : Rotation3D, spaceSeparatedRotation3D fmt p ≠ spaced ([p.wx, p.wy, p.wz].map (fmt shown))) ∧
    (∀ p : Position6D, spaceSeparatedPosition6D fmt p ≠
      spaced ([p.x, p.y, p.z, p.wx, p.wy, p.wz].map (fmt shown))) ∧
    (∀ p : Velocity6D, spaceSeparatedVelocity6D fmt p ≠
      spaced ([p.xd, p.yd, p.zd, p.wxd, p.wyd, p.wzd].map (fmt shown))) ∧
    (∀ p : Quat, spaceSeparatedQuaternion fmt p ≠ spaced ([p.w, p.x, p.y, p.z].map (fmt shown))) ∧
    ∀ (p : Transform) (l : List ℝ), spaceSeparatedTransform fmt p ≠ spaced (l.map (fmt shown)) := by
  have key : ∀ (fs : List (List Char × List Char)) (t : List Char) (l : List ℝ), Record fs t →
      t ≠ spaced (l.map (fmt shown)) := by
    rintro fs t l ⟨r, rfl, -⟩ e
    match l with
    | [] => simp [spaced] at e
    | x :: l =>
      obtain ⟨c, w, hw⟩ := List.exists_cons_of_ne_nil (hfmt x).1
      have hc := (hfmt x).2 c (by simp [hw])
      have : spaced ((x :: l).map (fmt shown)) ≠ [] ∧ (spaced ((x :: l).map (fmt shown))).head? = some c := by
        cases l <;> simp [spaced, hw]
      rw [← e] at this
      simp only [List.head?_cons, Option.some.injEq] at this
      exact hc (by simp [← this.2])
  have hnl : ∀ l : List ℝ, '\n' ∉ spaced (l.map (fmt shown)) := by
    intro l
    induction l with
    | nil => simp [spaced]
    | cons x l ih =>
      cases l with
      | nil =>
        intro h
        exact (hfmt x).2 _ h (by simp)
      | cons y l =>
        intro h
        simp only [List.map_cons, spaced, List.mem_append, List.mem_cons] at h
        rcases h with h | h | h
        · exact (hfmt x).2 _ h (by simp)
        · exact absurd h (by decide)
        · exact ih (by simpa using h)
  refine ⟨fun p => ?_, fun p => ?_, fun p => ?_, fun p => ?_, fun p => ?_, fun p l e => ?_⟩
  · obtain ⟨t, e, h⟩ := putPosition3D_text fmt .fresh p
    rw [spaceSeparatedPosition3D, e]
    exact key _ _ _ h
  · obtain ⟨t, e, h⟩ := putRotation3D_text fmt .fresh p
    rw [spaceSeparatedRotation3D, e]
    exact key _ _ _ h
  · obtain ⟨t, e, h⟩ := putPosition6D_text fmt .fresh p
    rw [spaceSeparatedPosition6D, e]
    exact key _ _ _ h
  · obtain ⟨t, e, h⟩ := putVelocity6D_text fmt .fresh p
    rw [spaceSeparatedVelocity6D, e]
    exact key _ _ _ h
  · obtain ⟨t, e, h⟩ := putQuaternion_text fmt .fresh p
    rw [spaceSeparatedQuaternion, e]
    exact key _ _ _ h
  · refine hnl l ?_
    rw [← e, spaceSeparatedTransform, (C74_matrices fmt _).2.1]
    simp [rows, line]

/-! ### Examples -/

open Classical in
/-- Prints 1 as "1" or "+1.", anything else as "-2". Helper of the examples. Not in /repo:
specification. -/
noncomputable def printOne (f : Flags) (x : ℝ) : List Char :=
  if x = 1 then (if f.showpos then "+1.".toList else "1".toList) else "-2".toList

theorem printOne_clean (f : Flags) (x : ℝ) : Clean (printOne f x) := by
  unfold printOne
  split_ifs <;> simp [Clean]

example : (putRotation3D printOne ⟨⟨false, false, false⟩, "w = ".toList⟩ ⟨1, 1, 0⟩).text =
    "w = {wx: +1. ,wy: +1. ,wz: -2}".toList := by
  simp [putRotation3D, Stream.putAll, Stream.put, Stream.setf, printOne]

/-- Printing 1, a position, and 1 again. -/
example (p : Position3D) :
    ((putPosition3D printOne .fresh p).put printOne (.n 1)).text ≠
      (putPosition3D printOne .fresh p).text ++ "1".toList := by
  have := C74_sticky printOne .fresh p 1 (by simp [printOne, shown, Stream.fresh])
  simpa [printOne, Stream.fresh] using this

example (p : Quat) : spaceSeparatedQuaternion printOne p ≠
    spaced ([p.w, p.x, p.y, p.z].map (printOne shown)) :=
  (C74_not_space_separated printOne (printOne_clean _)).2.2.2.2.1 p

example (p q : Transform) (h : (putTransform printOne .fresh p).text = (putTransform printOne .fresh q).text) :
    printOne shown p.r23 = printOne shown q.r23 := by
  have := (C74_determines printOne (printOne_clean _) _ _ rfl).2 p q h
  simp only [List.map_cons, List.cons.injEq] at this
  exact this.2.2.2.2.2.2.1

end AlMath.Io
