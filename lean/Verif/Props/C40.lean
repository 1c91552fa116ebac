import Mathlib.Algebra.BigOperators.Intervals
import Mathlib.Tactic.IntervalCases
import Verif.Model.Dsp

/-!
C40: the digital filter implements its difference equation.
-/

namespace AlMath

namespace Spec

open Finset in
/-- `ys` is the response to `xs` of the filter with the given weights and gain, started with
empty delay lines: the raw input as long as fewer than `nIn` inputs or `nOut` outputs are
known, then the weighted sum of the last `nIn` inputs (divided by the gain) and of the last
`nOut` outputs, oldest first. Not in /repo: specification. -/
def IsResponse (wIn wOut : List ℝ) (gain : ℝ) (xs ys : List ℝ) : Prop :=
  ys.length = xs.length ∧
  ∀ n, n < xs.length → ys.getD n 0 =
    if n + 1 < wIn.length ∨ n < wOut.length then xs.getD n 0
    else (∑ i ∈ range wIn.length, xs.getD (n + 1 - wIn.length + i) 0 / gain * wIn.getD i 0) +
      ∑ i ∈ range wOut.length, ys.getD (n - wOut.length + i) 0 * wOut.getD i 0

/-- The delay lines have the configured capacities and do not exceed them. Not in /repo:
specification. -/
def DelaysOk (f : DigitalFilter) : Prop :=
  f.bufIn.cap = f.weightsIn.length ∧ f.bufOut.cap = f.weightsOut.length ∧
  f.bufIn.data.length ≤ f.bufIn.cap ∧ f.bufOut.data.length ≤ f.bufOut.cap

end Spec

open Spec

theorem accumulate_eq (buf w : List ℝ) (is : List ℕ) (acc : ℝ)
    (h1 : ∀ i ∈ is, i < buf.length) (h2 : ∀ i ∈ is, i < w.length) :
    DigitalFilter.accumulate buf w is acc =
      .ok (acc + (is.map fun i => buf.getD i 0 * w.getD i 0).sum) := by
  induction is generalizing acc with
  | nil => simp [DigitalFilter.accumulate]
  | cons i is ih =>
    have e1 : Res.read buf i = .ok (buf.getD i 0) := by
      unfold Res.read
      rw [List.getD, List.getElem?_eq_getElem (h1 i (by simp))]; rfl
    have e2 : Res.read w i = .ok (w.getD i 0) := by
      unfold Res.read
      rw [List.getD, List.getElem?_eq_getElem (h2 i (by simp))]; rfl
    unfold DigitalFilter.accumulate
    rw [e1, Res.bind_ok, e2, Res.bind_ok, ih _ (fun j hj => h1 j (by simp [hj]))
      (fun j hj => h2 j (by simp [hj]))]
    simp [add_assoc]

theorem accumulate_range (buf w : List ℝ) (acc : ℝ) (h : buf.length = w.length) :
    DigitalFilter.accumulate buf w (List.range w.length) acc =
      .ok (acc + ∑ i ∈ Finset.range w.length, buf.getD i 0 * w.getD i 0) := by
  rw [accumulate_eq _ _ _ _ (by simp [h]) (by simp)]
  congr 2

theorem push_cap {α : Type} (b : CircBuf α) (v : α) : (b.push v).cap = b.cap := by
  unfold CircBuf.push; split_ifs <;> rfl

theorem push_len {α : Type} (b : CircBuf α) (v : α) (h : b.data.length ≤ b.cap) :
    (b.push v).data.length ≤ b.cap := by
  unfold CircBuf.push
  split_ifs with h1 h2
  · exact h
  · simp; omega
  · simp; omega

/-- The last `n` elements. -/
def lastN {α : Type} (n : ℕ) (l : List α) : List α := l.drop (l.length - n)

theorem push_lastN {α : Type} (n : ℕ) (l : List α) (v : α) :
    (⟨n, lastN n l⟩ : CircBuf α).push v = ⟨n, lastN n (l ++ [v])⟩ := by
  unfold CircBuf.push lastN
  simp only [List.length_drop, List.length_append, List.length_singleton]
  split_ifs with h1 h2
  · subst h1; simp
  · congr 1
    have e : l.length + 1 - n = (l.length - n) + 1 := by omega
    rw [e, List.tail_drop, List.drop_append_of_le_length (by omega)]
  · congr 1
    have e1 : l.length - n = 0 := by omega
    have e2 : l.length + 1 - n = 0 := by omega
    rw [e1, e2]; rfl

theorem lastN_len {α : Type} (n : ℕ) (l : List α) : (lastN n l).length = n ↔ n ≤ l.length := by
  unfold lastN; rw [List.length_drop]; omega

theorem lastN_getD (n : ℕ) (l : List ℝ) (i : ℕ) :
    (lastN n l).getD i 0 = l.getD (l.length - n + i) 0 := by
  unfold lastN
  simp [List.getD, List.getElem?_drop]

/-- State of a filter after reset and a list of inputs with the given outputs. -/
noncomputable def After (wIn wOut : List ℝ) (g : ℝ) (xs ys : List ℝ) : DigitalFilter :=
  ⟨⟨wIn.length, lastN wIn.length (xs.map (· / g))⟩, ⟨wOut.length, lastN wOut.length ys⟩,
    g, wIn, wOut⟩

theorem process_after (wIn wOut : List ℝ) (g : ℝ) (hg : g ≠ 0) (xs ys : List ℝ) (x : ℝ)
    (h : IsResponse wIn wOut g xs ys) :
    ∃ y, (After wIn wOut g xs ys).process x = .ok (y, After wIn wOut g (xs ++ [x]) (ys ++ [y])) ∧
      IsResponse wIn wOut g (xs ++ [x]) (ys ++ [y]) := by
  have hmap : (xs.map (· / g)) ++ [x / g] = (xs ++ [x]).map (· / g) := by simp
  have hlen := h.1
  -- the value
  obtain ⟨y, hy⟩ : ∃ y, y = if xs.length + 1 < wIn.length ∨ xs.length < wOut.length then x
      else (∑ i ∈ Finset.range wIn.length,
          (xs ++ [x]).getD (xs.length + 1 - wIn.length + i) 0 / g * wIn.getD i 0) +
        ∑ i ∈ Finset.range wOut.length, ys.getD (xs.length - wOut.length + i) 0 * wOut.getD i 0 :=
    ⟨_, rfl⟩
  refine ⟨y, ?_, ?_⟩
  · unfold DigitalFilter.process After
    dsimp only
    rw [if_neg hg, push_lastN, hmap]
    have hfull : ((⟨wIn.length, lastN wIn.length ((xs ++ [x]).map (· / g))⟩ : CircBuf ℝ).full ∧
        (⟨wOut.length, lastN wOut.length ys⟩ : CircBuf ℝ).full) ↔
        ¬ (xs.length + 1 < wIn.length ∨ xs.length < wOut.length) := by
      unfold CircBuf.full
      simp only [lastN_len]
      simp only [List.length_map, List.length_append, List.length_singleton, hlen]
      omega
    by_cases hc : xs.length + 1 < wIn.length ∨ xs.length < wOut.length
    · rw [if_neg (by rw [hfull]; exact not_not.2 hc), Res.bind_ok, push_lastN]
      rw [hy, if_pos hc]
    · have hf := hfull.2 hc
      rw [if_pos hf, accumulate_range _ _ _ hf.1, Res.bind_ok, accumulate_range _ _ _ hf.2,
        Res.bind_ok, push_lastN]
      rw [if_neg hc] at hy
      have : 0 + ∑ i ∈ Finset.range wIn.length,
            (lastN wIn.length ((xs ++ [x]).map (· / g))).getD i 0 * wIn.getD i 0 +
          ∑ i ∈ Finset.range wOut.length, (lastN wOut.length ys).getD i 0 * wOut.getD i 0 = y := by
        rw [hy, zero_add]
        congr 1
        · apply Finset.sum_congr rfl
          intro i hi
          have hi := Finset.mem_range.1 hi
          rw [lastN_getD]
          congr 1
          rw [List.length_map, List.length_append, List.length_singleton]
          have hlt : xs.length + 1 - wIn.length + i < (xs ++ [x]).length := by
            simp; omega
          simp only [List.getD, List.getElem?_map, List.getElem?_eq_getElem hlt, Option.map_some,
            Option.getD_some]
        · apply Finset.sum_congr rfl
          intro i hi
          rw [lastN_getD, hlen]
      rw [this]
  · refine ⟨by simp [hlen], ?_⟩
    intro n hn
    simp only [List.length_append, List.length_singleton] at hn
    rcases Nat.lt_succ_iff_lt_or_eq.1 hn with hn | hn
    · have e1 : ∀ (l : List ℝ) (v : ℝ) (k : ℕ), k < l.length → (l ++ [v]).getD k 0 = l.getD k 0 := by
        intro l v k hk
        simp [List.getD, List.getElem?_append_left hk]
      rw [e1 _ _ _ (by omega), h.2 n hn, e1 _ _ _ hn]
      by_cases hc : n + 1 < wIn.length ∨ n < wOut.length
      · rw [if_pos hc, if_pos hc]
      · rw [if_neg hc, if_neg hc]
        congr 1
        · apply Finset.sum_congr rfl
          intro i hi
          have hi := Finset.mem_range.1 hi
          rw [e1 _ _ _ (by omega)]
        · apply Finset.sum_congr rfl
          intro i hi
          have hi := Finset.mem_range.1 hi
          rw [e1 _ _ _ (by omega)]
    · subst hn
      have e0 : ∀ (l : List ℝ) (v : ℝ), (l ++ [v]).getD l.length 0 = v := by
        intro l v; simp [List.getD]
      rw [← hlen, e0 ys y, hlen, e0 xs x, hy]
      by_cases hc : xs.length + 1 < wIn.length ∨ xs.length < wOut.length
      · rw [if_pos hc, if_pos hc]
      · rw [if_neg hc, if_neg hc]
        congr 1
        apply Finset.sum_congr rfl
        intro i hi
        have hi := Finset.mem_range.1 hi
        have hk : xs.length - wOut.length + i < ys.length := by omega
        simp [List.getD, List.getElem?_append_left hk]

theorem processAll_after (wIn wOut : List ℝ) (g : ℝ) (hg : g ≠ 0) (xs0 ys0 xs : List ℝ)
    (h : IsResponse wIn wOut g xs0 ys0) :
    ∃ ys, (After wIn wOut g xs0 ys0).processAll xs =
        .ok (ys, After wIn wOut g (xs0 ++ xs) (ys0 ++ ys)) ∧
      IsResponse wIn wOut g (xs0 ++ xs) (ys0 ++ ys) := by
  induction xs generalizing xs0 ys0 with
  | nil => exact ⟨[], by simp [DigitalFilter.processAll], by simpa using h⟩
  | cons x xs ih =>
    obtain ⟨y, e1, h1⟩ := process_after wIn wOut g hg xs0 ys0 x h
    obtain ⟨ys, e2, h2⟩ := ih _ _ h1
    refine ⟨y :: ys, ?_, by simpa using h2⟩
    unfold DigitalFilter.processAll
    rw [e1, Res.bind_ok, e2, Res.bind_ok]
    simp

theorem isResponse_nil (wIn wOut : List ℝ) (g : ℝ) : IsResponse wIn wOut g [] [] :=
  ⟨rfl, by simp⟩

theorem reset_after (f : DigitalFilter) (wIn wOut : List ℝ) (g : ℝ) :
    (f.configure wIn wOut g).reset = After wIn wOut g [] [] := by
  simp [DigitalFilter.configure, DigitalFilter.reset, After, CircBuf.setCapacity, CircBuf.clear,
    lastN]

theorem default_after (wIn wOut : List ℝ) (g : ℝ) :
    DigitalFilter.default.configure wIn wOut g = After wIn wOut g [] [] := by
  simp [DigitalFilter.configure, DigitalFilter.default, After, CircBuf.setCapacity,
    CircBuf.empty, lastN]

/-- A new filter, configured with any weights and a non-zero gain, responds to every sequence
of inputs by the difference equation. Missing for the full claim: a zero gain, by which inputs are
divided (`C40_zero_gain`). -/
theorem C40_response_partial (wIn wOut : List ℝ) (g : ℝ) (hg : g ≠ 0) (xs : List ℝ) :
    ∃ ys f, (DigitalFilter.default.configure wIn wOut g).processAll xs = .ok (ys, f) ∧
      IsResponse wIn wOut g xs ys := by
  rw [default_after]
  obtain ⟨ys, e, h⟩ := processAll_after wIn wOut g hg [] [] xs (isResponse_nil _ _ _)
  exact ⟨ys, _, e, by simpa using h⟩

/-- The response is unique, so the previous theorem determines the output. -/
theorem C40_response_unique (wIn wOut : List ℝ) (g : ℝ) (xs ys ys' : List ℝ)
    (h : IsResponse wIn wOut g xs ys) (h' : IsResponse wIn wOut g xs ys') : ys = ys' := by
  have key : ∀ n, n < xs.length → ys.getD n 0 = ys'.getD n 0 := by
    intro n
    induction n using Nat.strong_induction_on with
    | _ n ih =>
      intro hn
      rw [h.2 n hn, h'.2 n hn]
      by_cases hc : n + 1 < wIn.length ∨ n < wOut.length
      · rw [if_pos hc, if_pos hc]
      · rw [if_neg hc, if_neg hc]
        congr 1
        apply Finset.sum_congr rfl
        intro i hi
        have hi := Finset.mem_range.1 hi
        rw [ih _ (by omega) (by omega)]
  apply List.ext_getElem (by rw [h.1, h'.1])
  intro n h1 h2
  have := key n (by rw [← h.1]; exact h1)
  simpa [List.getD, List.getElem?_eq_getElem h1, List.getElem?_eq_getElem h2] using this

/-- A response of a first order filter: raw input first, then `x/2 + y/2`. -/
example : IsResponse [1] [0.5] 2 [8, 8, 8] [8, 8, 8] := by
  refine ⟨rfl, ?_⟩
  intro n hn
  simp at hn
  interval_cases n <;> norm_num [Finset.sum_range_succ, List.getD]

/-- `resetFilter` makes a configured filter behave as a new one with the same
configuration, whatever was processed or configured before. -/
theorem C40_reset (f : DigitalFilter) (wIn wOut : List ℝ) (g : ℝ) (xs zs ys : List ℝ)
    (f' : DigitalFilter) (h : (f.configure wIn wOut g).processAll xs = .ok (ys, f')) :
    (f'.reset).processAll zs = (DigitalFilter.default.configure wIn wOut g).processAll zs := by
  have key : ∀ (f : DigitalFilter) (x : ℝ) (r : ℝ × DigitalFilter), f.process x = .ok r →
      r.2.reset = f.reset := by
    intro f x r hr
    unfold DigitalFilter.process at hr
    by_cases hg : f.dcGain = 0
    · rw [if_pos hg] at hr; cases hr
    · rw [if_neg hg] at hr
      dsimp only at hr
      rw [Res.bind_eq_ok] at hr
      obtain ⟨out, -, hr⟩ := hr
      rw [← Res.ok.inj hr]
      simp [DigitalFilter.reset, CircBuf.clear, push_cap]
  have key2 : ∀ (xs : List ℝ) (f : DigitalFilter) (r : List ℝ × DigitalFilter),
      f.processAll xs = .ok r → r.2.reset = f.reset := by
    intro xs
    induction xs with
    | nil =>
      intro f r hr
      rw [← Res.ok.inj hr]
    | cons x xs ih =>
      intro f r hr
      unfold DigitalFilter.processAll at hr
      rw [Res.bind_eq_ok] at hr
      obtain ⟨r1, h1, hr⟩ := hr
      rw [Res.bind_eq_ok] at hr
      obtain ⟨r2, h2, hr⟩ := hr
      rw [← Res.ok.inj hr]
      simp only
      rw [ih _ _ h2, key _ _ _ h1]
  have := key2 xs _ _ h
  simp only at this
  rw [this, reset_after, default_after]

example : ∃ ys f', (DigitalFilter.default.configure [1, 2] [0.5] 2).processAll [1, 2, 3] =
    .ok (ys, f') := by
  obtain ⟨ys, f, h, -⟩ := C40_response_partial [1, 2] [0.5] 2 (by norm_num) [1, 2, 3]
  exact ⟨ys, f, h⟩

/-- Delay lines have the configured lengths after every configuration, stay within them,
and then processing with a non-zero gain never reads outside them. Missing for the full claim:
filters that were never configured (`C40_unconfigured_ub`). -/
theorem C40_delays_partial (f : DigitalFilter) (wIn wOut : List ℝ) (g : ℝ) :
    DelaysOk (f.configure wIn wOut g) ∧ (DelaysOk f → DelaysOk f.reset) ∧
    ∀ x, DelaysOk f → f.dcGain ≠ 0 → ∃ y f', f.process x = .ok (y, f') ∧ DelaysOk f' ∧
      f'.dcGain = f.dcGain := by
  refine ⟨?_, ?_, ?_⟩
  · refine ⟨rfl, rfl, ?_, ?_⟩ <;> simp [DigitalFilter.configure, CircBuf.setCapacity]
  · rintro ⟨h1, h2, -, -⟩
    exact ⟨h1, h2, by simp [DigitalFilter.reset, CircBuf.clear],
      by simp [DigitalFilter.reset, CircBuf.clear]⟩
  · rintro x ⟨h1, h2, h3, h4⟩ hg
    unfold DigitalFilter.process
    rw [if_neg hg]
    dsimp only
    have hok : ∀ y, DelaysOk ⟨f.bufIn.push (x / f.dcGain), f.bufOut.push y, f.dcGain,
        f.weightsIn, f.weightsOut⟩ := by
      intro y
      refine ⟨by simpa [push_cap] using h1, by simpa [push_cap] using h2, ?_, ?_⟩
      · simp only [push_cap]; exact push_len _ _ h3
      · simp only [push_cap]; exact push_len _ _ h4
    by_cases hf : (f.bufIn.push (x / f.dcGain)).full ∧ f.bufOut.full
    · rw [if_pos hf]
      have e1 : (f.bufIn.push (x / f.dcGain)).data.length = f.weightsIn.length := by
        rw [hf.1, push_cap, h1]
      have e2 : f.bufOut.data.length = f.weightsOut.length := by rw [hf.2, h2]
      rw [accumulate_range _ _ _ e1, Res.bind_ok, accumulate_range _ _ _ e2, Res.bind_ok]
      exact ⟨_, _, rfl, hok _, rfl⟩
    · rw [if_neg hf, Res.bind_ok]
      exact ⟨_, _, rfl, hok _, rfl⟩

/-- With a zero gain every input is divided by zero. -/
theorem C40_zero_gain (f : DigitalFilter) (wIn wOut : List ℝ) (x : ℝ) :
    (f.configure wIn wOut 0).process x = .ub := by
  simp [DigitalFilter.process, DigitalFilter.configure]

/-- A filter that was never configured reads outside its (empty) delay line on the first
input. -/
theorem C40_unconfigured_ub (x : ℝ) : DigitalFilter.default.process x = .ub := by
  unfold DigitalFilter.process
  rw [if_neg (by simp [DigitalFilter.default])]
  dsimp only
  rw [if_pos (by
    constructor
    · simp [CircBuf.full, CircBuf.push, DigitalFilter.default, CircBuf.empty]
    · simp [CircBuf.full, DigitalFilter.default, CircBuf.empty])]
  simp [DigitalFilter.default, CircBuf.push, CircBuf.empty, DigitalFilter.accumulate, Res.read]

/-- Reconfiguring without reset keeps old samples: the response is then not that of a new
filter. -/
theorem C40_reconfigure_keeps_samples : ∃ (f : DigitalFilter) (xs ys : List ℝ)
    (f' : DigitalFilter) (x : ℝ) (r r' : ℝ × DigitalFilter),
    f = DigitalFilter.default.configure [1] [0.5] 1 ∧ f.processAll xs = .ok (ys, f') ∧
    (f'.configure [1] [0.5] 1).process x = .ok r ∧ f.process x = .ok r' ∧ r.1 ≠ r'.1 := by
  obtain ⟨ys, e, h⟩ := processAll_after [1] [0.5] 1 one_ne_zero [] [] [4] (isResponse_nil _ _ _)
  have hy : ys = [4] := C40_response_unique _ _ _ _ _ _ (by simpa using h) (by
    refine ⟨rfl, ?_⟩
    intro n hn
    simp at hn
    subst hn
    norm_num)
  subst hy
  obtain ⟨y1, e1, g1⟩ := process_after [1] [0.5] 1 one_ne_zero [4] [4] 1 (by simpa using h)
  obtain ⟨y2, e2, g2⟩ := process_after [1] [0.5] 1 one_ne_zero [] [] 1 (isResponse_nil _ _ _)
  refine ⟨_, [4], [4], _, 1, (y1, After [1] [0.5] 1 ([4] ++ [1]) ([4] ++ [y1])), (y2, _), rfl, by rw [default_after]; exact e, ?_,
    by rw [default_after]; exact e2, ?_⟩
  · have : (After [1] [0.5] 1 ([] ++ [4]) ([] ++ [4])).configure [1] [0.5] 1 =
        After [1] [0.5] 1 [4] [4] := by
      simp [DigitalFilter.configure, After, CircBuf.setCapacity, lastN]
    rw [this]; exact e1
  · have q1 := g1.2 1 (by simp)
    have q2 := g2.2 0 (by simp)
    norm_num [Finset.sum_range_succ, List.getD] at q1 q2
    simp only
    rw [q1, q2]; norm_num

end AlMath
