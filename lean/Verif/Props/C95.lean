import Verif.Props.C38
import Verif.Props.C94
import Verif.Lemmas.FloatDet

/-!
C95: the PID controller in single precision.
-/

namespace AlMath

namespace Spec

/-- The slope from the last of the errors `es` to the error `e`, 0 if there is none. Not in /repo: specification. -/
noncomputable def lastSlope (T : ℝ) (es : List ℝ) (e : ℝ) : ℝ :=
  match es.getLast? with
  | none => 0
  | some x => (e - x) / T

/-- The PID law of C39: `es` are the earlier errors after the dead band, `e` is the present one, `d` is the derivative.
Not in /repo: specification. -/
noncomputable def pidLaw (kp kv ki o T d : ℝ) (es : List ℝ) (e : ℝ) : ℝ := o + kp * e + kv * d + ki * ((es.sum + e) * T)

/-- Allowed error of the feedback in single precision after `N` samples of magnitude at most `W`. Not in /repo:
specification. -/
noncomputable def pidError (kp kv ki o T W N : ℝ) : ℝ :=
  2 ^ (-19 : ℤ) * o + 2 ^ (-19 : ℤ) * (kp * W) + 2 ^ (-18 : ℤ) * (kv * (W / T)) +
    (N + 8) * 2 ^ (-22 : ℤ) * (ki * (N * (W * T))) + 2 ^ (-146 : ℤ) * (1 + kv + ki * N)

end Spec

open Spec

/-! ### The dead band -/

theorem deadBand_lipschitz (t x y : ℝ) (ht : 0 ≤ t) : |deadBand t x - deadBand t y| ≤ |x - y| := by
  unfold deadBand
  rcases abs_cases (x - y) with ⟨h1, h2⟩ | ⟨h1, h2⟩ <;> rw [h1] <;>
  rcases abs_cases x with ⟨h3, h4⟩ | ⟨h3, h4⟩ <;> rcases abs_cases y with ⟨h5, h6⟩ | ⟨h5, h6⟩ <;>
  rw [h3, h5] <;> split_ifs <;> rw [abs_le] <;> constructor <;> linarith

theorem deadBand_abs_le (t x : ℝ) (ht : 0 ≤ t) : |deadBand t x| ≤ |x| := by
  have := deadBand_lipschitz t x 0 ht
  have e : deadBand t 0 = 0 := by rw [deadBand, if_pos (by simpa using ht)]
  simpa [e] using this

namespace F32

open Classical in
/-- The error after the dead band, as `computeFeedback` computes it. Helper of the proofs. Not in /repo:
specification. -/
noncomputable def bandErr (t e : F32) : F32 :=
  if lt t e then sub e t else if lt e (neg t) then add e t else fin 0

theorem computeFeedback_eq (s : Pid) (c m pp : F32) : s.computeFeedback c m pp =
    ({ s with previousErr := s.err, err := bandErr s.threshold (sub c m) } : Pid).finish s.period
      (sub (bandErr s.threshold (sub c m)) s.err) := by
  unfold Pid.computeFeedback bandErr
  simp only [ite_self]
  split_ifs <;> rfl

theorem band_fin {t c m W : ℝ} (ht0 : 0 ≤ t) (ht : Rep t) (hc : Rep c) (hm : Rep m) (hW : |c - m| ≤ W)
    (hb : W ≤ 2 ^ 120) :
    ∃ e, bandErr (fin t) (sub (fin c) (fin m)) = fin e ∧ Rep e ∧ |e - deadBand t (c - m)| ≤ 2 ^ (-22 : ℤ) * W ∧
      |e| ≤ 2 * W := by
  have hbig : (4 : ℝ) * 2 ^ 120 ≤ 2 ^ 127 := by norm_num
  have hW0 : 0 ≤ W := (abs_nonneg _).trans hW
  have hx := rnd_add hc.grid hm.neg.grid
  rw [← sub_eq_add_neg] at hx
  rw [sub_fin (by linarith)]
  have hy1 := le_of_err hx
  have hu := two_neg24
  rw [hu] at hx hy1
  have hyW : |rnd (c - m)| ≤ W + 1 / 16777216 * W := by linarith
  have hyR : Rep (rnd (c - m)) := rnd_rep (by linarith)
  have hlip := deadBand_lipschitz t (rnd (c - m)) (c - m) ht0
  have h22 : (2 : ℝ) ^ (-22 : ℤ) = 1 / 4194304 := by norm_num
  rw [h22]
  generalize rnd (c - m) = y at *
  have fin_case : ∀ e : ℝ, |e - deadBand t y| ≤ 1 / 16777216 * |y| →
      |e - deadBand t (c - m)| ≤ 1 / 4194304 * W ∧ |e| ≤ 2 * W := by
    intro e he
    have q : |e - deadBand t (c - m)| ≤ 1 / 4194304 * W := by
      have := abs_add_le (e - deadBand t y) (deadBand t y - deadBand t (c - m))
      rw [sub_add_sub_cancel] at this
      linarith
    refine ⟨q, ?_⟩
    have := le_of_err q
    have := deadBand_abs_le t (c - m) ht0
    linarith
  unfold bandErr
  have hneg : neg (fin t) = fin (-t) := rfl
  rw [hneg]
  by_cases h1 : lt (fin t) (fin y)
  · rw [if_pos h1]
    have h1 : t < y := h1
    have hy0 : 0 < y := lt_of_le_of_lt ht0 h1
    have habs : |y - t| ≤ |y| := by rw [abs_of_pos hy0, abs_of_pos (by linarith)]; linarith
    have hd : deadBand t y = y - t := by rw [deadBand, if_neg (by rw [abs_of_pos hy0]; linarith), if_pos hy0]
    have h2 := rnd_add hyR.grid ht.neg.grid
    rw [← sub_eq_add_neg, hu] at h2
    rw [sub_fin (by linarith)]
    refine ⟨_, rfl, rnd_rep (by linarith), fin_case _ ?_⟩
    rw [hd]
    linarith
  · rw [if_neg h1]
    have h1 : ¬ t < y := h1
    by_cases h3 : lt (fin y) (fin (-t))
    · rw [if_pos h3]
      have h3 : y < -t := h3
      have hy0 : y < 0 := by linarith
      have habs : |y + t| ≤ |y| := by rw [abs_of_neg hy0, abs_of_neg (by linarith)]; linarith
      have hd : deadBand t y = y + t := by
        rw [deadBand, if_neg (by rw [abs_of_neg hy0]; linarith), if_neg (by linarith)]
      have h2 := rnd_add hyR.grid ht.grid
      rw [hu] at h2
      rw [add_fin (by linarith)]
      refine ⟨_, rfl, rnd_rep (by linarith), fin_case _ ?_⟩
      rw [hd]
      linarith
    · rw [if_neg h3]
      have h3 : ¬ y < -t := h3
      have hd : deadBand t y = 0 := by rw [deadBand, if_pos (abs_le.2 ⟨by linarith, by linarith⟩)]
      refine ⟨0, rfl, Rep.zero, fin_case _ ?_⟩
      rw [hd, sub_zero, abs_zero]
      positivity

/-! ### One call -/

/-- Update of the integral: `I` and `q` are the stored integral and the new error, `Is` and `qs` the exact ones. -/
theorem integral_step {I q T Is qs W S : ℝ} {n : ℕ} (hI : Rep I) (hT : 0 < T) (hn : n + 1 ≤ 2 ^ 20)
    (hq : |q - qs| ≤ 2 ^ (-22 : ℤ) * W) (hqW : |q| ≤ 2 * W) (hS : |Is + qs * T| ≤ S) (hW0 : 0 ≤ W)
    (hI1 : |I - Is| ≤ n * (2 ^ (-22 : ℤ) * S + 2 ^ (-20 : ℤ) * (W * T) + 2 ^ (-148 : ℤ))) (hSb : S ≤ 2 ^ 120)
    (hWb : W * T ≤ 2 ^ 120) :
    ∃ J, add (fin I) (F32.mul (fin q) (fin T)) = fin J ∧ Rep J ∧
      |J - (Is + qs * T)| ≤ (n + 1 : ℕ) * (2 ^ (-22 : ℤ) * S + 2 ^ (-20 : ℤ) * (W * T) + 2 ^ (-148 : ℤ)) := by
  have h22 : (2 : ℝ) ^ (-22 : ℤ) = 1 / 4194304 := by norm_num
  have h20 : (2 : ℝ) ^ (-20 : ℤ) = 1 / 1048576 := by norm_num
  have he := eta_pos
  have he1 := eta_le
  have hbig : (4 : ℝ) * 2 ^ 120 + 4 * 2 ^ 120 + 8 ≤ 2 ^ 127 := by norm_num
  have hWT0 : 0 ≤ W * T := by positivity
  have hS0 : 0 ≤ S := (abs_nonneg _).trans hS
  have p1 := rnd_gen (q * T)
  have habs : |q * T| ≤ 2 * (W * T) := by
    rw [abs_mul, abs_of_pos hT, ← mul_assoc]
    exact mul_le_mul_of_nonneg_right hqW hT.le
  have hqs : |q * T - qs * T| ≤ 2 ^ (-22 : ℤ) * (W * T) := by
    rw [← sub_mul, abs_mul, abs_of_pos hT, ← mul_assoc]
    exact mul_le_mul_of_nonneg_right hq hT.le
  have hn' : (n : ℝ) + 1 ≤ 1048576 := by
    have : n + 1 ≤ 1048576 := by omega
    exact_mod_cast this
  have hn0 : (0 : ℝ) ≤ n := Nat.cast_nonneg n
  rw [mul_fin (by linarith)]
  have p2 := rnd_add hI.grid (rnd_grid (q * T))
  rw [four_eta, h22, h20] at hI1 ⊢
  rw [h22] at hqs
  rw [two_neg24] at p1 p2
  have heta : (2 : ℝ) ^ (-150 : ℤ) ≤ 1 / 16777216 := by
    rw [← two_neg24]
    exact zpow_le_zpow_right₀ (by norm_num) (by norm_num)
  generalize (2 : ℝ) ^ (-150 : ℤ) = η at *
  set R := 1 / 4194304 * S + 1 / 1048576 * (W * T) + 4 * η with hR
  have hR0 : 0 ≤ R := by positivity
  have hnR : (n : ℝ) * R ≤ 1048576 * R := mul_le_mul_of_nonneg_right (by linarith) hR0
  -- the product
  have hp : |rnd (q * T) - qs * T| ≤ 1 / 16777216 * (2 * (W * T)) + η + 1 / 4194304 * (W * T) := by
    have := abs_add_le (rnd (q * T) - q * T) (q * T - qs * T)
    rw [sub_add_sub_cancel] at this
    linarith
  have hsum : |I + rnd (q * T) - (Is + qs * T)| ≤ n * R + (1 / 16777216 * (2 * (W * T)) + η + 1 / 4194304 * (W * T)) := by
    have := abs_add_le (I - Is) (rnd (q * T) - qs * T)
    rw [show I - Is + (rnd (q * T) - qs * T) = I + rnd (q * T) - (Is + qs * T) by ring] at this
    linarith
  have hmag := le_of_err hsum
  have hbnd : |I + rnd (q * T)| ≤ 2 ^ 127 := by
    generalize (2 : ℝ) ^ 120 = M at *
    generalize (2 : ℝ) ^ 127 = M' at *
    linarith
  refine ⟨rnd (I + rnd (q * T)), add_fin hbnd, rnd_rep hbnd, ?_⟩
  clear hbnd hbig hSb hWb
  have := abs_add_le (rnd (I + rnd (q * T)) - (I + rnd (q * T))) (I + rnd (q * T) - (Is + qs * T))
  rw [sub_add_sub_cancel] at this
  push_cast
  have e : ((n : ℝ) + 1) * R = n * R + R := by ring
  rw [e]
  have k1 : 1 / 16777216 * (n * R) ≤ 1 / 16 * R := by linarith
  generalize (n : ℝ) * R = nR at *
  linarith

/-- The derivative: `e`, `e'` are the stored errors, `es`, `es'` the exact ones. -/
theorem derivative_step {e e' es es' T W : ℝ} (hT : 0 < T) (he : Rep e) (he' : Rep e') (h1 : |e - es| ≤ 2 ^ (-22 : ℤ) * W)
    (h2 : |e' - es'| ≤ 2 ^ (-22 : ℤ) * W) (hW1 : |e| ≤ 2 * W) (hW2 : |e'| ≤ 2 * W) (hs1 : |es| ≤ W) (hs2 : |es'| ≤ W)
    (hWb : W ≤ 2 ^ 120) (hWT : W / T ≤ 2 ^ 120) :
    ∃ d, div (sub (fin e) (fin e')) (fin T) = fin d ∧ Rep d ∧
      |d - (es - es') / T| ≤ 2 ^ (-20 : ℤ) * (W / T) + 2 ^ (-149 : ℤ) ∧ |(es - es') / T| ≤ 2 * (W / T) := by
  have h22 : (2 : ℝ) ^ (-22 : ℤ) = 1 / 4194304 := by norm_num
  have h20 : (2 : ℝ) ^ (-20 : ℤ) = 1 / 1048576 := by norm_num
  have hη := eta_pos
  have hW0 : 0 ≤ W := (abs_nonneg _).trans hs1
  have hWT0 : 0 ≤ W / T := by positivity
  have h149 : (2 : ℝ) ^ (-150 : ℤ) ≤ 2 ^ (-149 : ℤ) := zpow_le_zpow_right₀ (by norm_num) (by norm_num)
  have hbig : (8 : ℝ) * 2 ^ 120 ≤ 2 ^ 127 := by norm_num
  have p := rnd_add he.grid he'.neg.grid
  rw [← sub_eq_add_neg, two_neg24] at p
  rw [h22] at h1 h2
  have hds : |es - es'| ≤ 2 * W := by
    have := abs_sub es es'
    linarith
  have hdd : |(e - e') - (es - es')| ≤ 1 / 2097152 * W := by
    have := abs_sub (e - es) (e' - es')
    rw [show e - es - (e' - es') = (e - e') - (es - es') by ring] at this
    linarith
  have hde : |e - e'| ≤ 4 * W := by
    have := abs_sub e e'
    linarith
  have hde2 := le_of_err hdd
  rw [sub_fin (by linarith)]
  -- the difference
  have hy : |rnd (e - e') - (es - es')| ≤ 1 / 2097152 * W + 1 / 16777216 * (2 * W + 1 / 2097152 * W) := by
    have := abs_add_le (rnd (e - e') - (e - e')) ((e - e') - (es - es'))
    rw [sub_add_sub_cancel] at this
    linarith
  have hya := le_of_err hy
  generalize rnd (e - e') = y at *
  have hq : |y / T| ≤ 3 * (W / T) := by
    rw [abs_div, abs_of_pos hT, ← mul_div_assoc]
    exact div_le_div_of_nonneg_right (by linarith) hT.le
  have hq2 : |y / T - (es - es') / T| ≤ (1 / 2097152 + 1 / 16777216 * 3) * (W / T) := by
    rw [← sub_div, abs_div, abs_of_pos hT, ← mul_div_assoc]
    exact div_le_div_of_nonneg_right (by linarith) hT.le
  have hq3 : |(es - es') / T| ≤ 2 * (W / T) := by
    rw [abs_div, abs_of_pos hT, ← mul_div_assoc]
    exact div_le_div_of_nonneg_right hds hT.le
  have hb : |y / T| ≤ 2 ^ 127 := by linarith
  rw [div, if_neg hT.ne', round_fin hb]
  refine ⟨_, rfl, rnd_rep hb, ?_, hq3⟩
  have r := rnd_gen (y / T)
  have := abs_add_le (rnd (y / T) - y / T) (y / T - (es - es') / T)
  rw [sub_add_sub_cancel] at this
  rw [two_neg24] at r
  rw [h20]
  have hda : |(es - es') / T| ≤ 2 * (W / T) := hq3
  have hma : |y / T| ≤ 2 * (W / T) + (1 / 2097152 + 1 / 16777216 * 3) * (W / T) := by
    have := le_of_err hq2
    linarith
  clear hbig hb hWb hWT
  generalize (2 : ℝ) ^ (-150 : ℤ) = η at *
  generalize (2 : ℝ) ^ (-149 : ℤ) = η' at *
  linarith


/-- The state of a controller that has seen samples whose exact errors after the dead band are `es`. Helper of the proofs.
Not in /repo: specification. -/
def PidNear (kp kv ki t o T W S : ℝ) (es : List ℝ) (s : Pid) : Prop :=
  s.kp = fin kp ∧ s.kv = fin kv ∧ s.ki = fin ki ∧ s.threshold = fin t ∧ s.staticOffset = fin o ∧ s.period = fin T ∧
  (s.firstIteration = true ↔ es = []) ∧ (∀ x ∈ es, |x| ≤ W) ∧
  (∀ x, es.getLast? = some x → ∃ e, s.err = fin e ∧ Rep e ∧ |e - x| ≤ 2 ^ (-22 : ℤ) * W ∧ |e| ≤ 2 * W) ∧
  ∃ I, s.iErr = fin I ∧ Rep I ∧
    |I - es.sum * T| ≤ es.length * (2 ^ (-22 : ℤ) * S + 2 ^ (-20 : ℤ) * (W * T) + 2 ^ (-148 : ℤ))

theorem sum_abs_le (es : List ℝ) (W : ℝ) (h : ∀ x ∈ es, |x| ≤ W) : |es.sum| ≤ es.length * W := by
  induction es with
  | nil => simp
  | cons x es ih =>
    have h1 := ih fun y hy => h y (by simp [hy])
    have h2 := h x (by simp)
    have := abs_add_le x es.sum
    rw [List.sum_cons, List.length_cons]
    push_cast
    linarith

/-- The sum of the three terms and the offset. -/
theorem output_fin {o kp kv ki e d I S : ℝ} (ho : Rep o) (hS : |o| + (|kp * e| + (|kv * d| + |ki * I|)) ≤ S)
    (hb : S ≤ 2 ^ 120) :
    ∃ v, add (add (add (fin o) (F32.mul (fin kp) (fin e))) (F32.mul (fin kv) (fin d))) (F32.mul (fin ki) (fin I)) = fin v ∧
      Rep v ∧ |v - (o + kp * e + kv * d + ki * I)| ≤ 3 * (2 ^ (-22 : ℤ) * S + 2 ^ (-148 : ℤ)) := by
  obtain ⟨v, h1, h2, h3⟩ := accumulate_fin [kp, kv, ki] [e, d, I] [0, 1, 2] o o S 0 ho (by simp)
    (by simpa [List.getD] using hS) (by norm_num) hb (by simp) (by simp)
  simp only [DigitalFilter.accumulate, Res.read, Res.bind, List.map_cons, List.map_nil, List.getElem?_cons_zero,
    List.getElem?_cons_succ] at h1
  refine ⟨v, Res.ok.inj h1, h2, ?_⟩
  simp only [List.map_cons, List.map_nil, List.sum_cons, List.sum_nil, List.getD, List.getElem?_cons_zero,
    List.getElem?_cons_succ, Option.getD_some, List.length_cons, List.length_nil] at h3
  rw [show o + kp * e + kv * d + ki * I = o + (kp * e + (kv * d + (ki * I + 0))) by ring]
  refine h3.trans (le_of_eq ?_)
  norm_num

/-- One call: `e` is the error after the dead band and `d` the derivative as computed, `x` and `D` are the exact ones. -/
theorem pid_core {kp kv ki t o T W : ℝ} {N : ℕ} (hkp : 0 ≤ kp) (hkv : 0 ≤ kv) (hki : 0 ≤ ki) (ho0 : 0 ≤ o)
    (hT : 0 < T) (ho : Rep o) (hN : N ≤ 2 ^ 20) (hWb : W ≤ 2 ^ 100) (hWT : W / T ≤ 2 ^ 100)
    (hNW : N * (W * T) ≤ 2 ^ 100) (hkvb : kv ≤ 2 ^ 100) (hkib : ki ≤ 2 ^ 100)
    (hb : o + kp * W + kv * (W / T) + ki * (N * (W * T)) ≤ 2 ^ 100)
    (es : List ℝ) (s : Pid) (hs : PidNear kp kv ki t o T W (N * (W * T)) es s) (hn : es.length + 1 ≤ N)
    {x e d D : ℝ} {df : F32} (hx : |x| ≤ W) (e2 : Rep e) (e3 : |e - x| ≤ 2 ^ (-22 : ℤ) * W) (e4 : |e| ≤ 2 * W)
    (d1 : (if s.firstIteration = true then fin 0 else div df (fin T)) = fin d)
    (d3 : |d - D| ≤ 2 ^ (-20 : ℤ) * (W / T) + 2 ^ (-149 : ℤ)) (d4 : |D| ≤ 2 * (W / T)) :
    PidNear kp kv ki t o T W (N * (W * T)) (es ++ [x])
      (({ s with previousErr := s.err, err := fin e } : Pid).finish (fin T) df).2 ∧
    ∃ v, (({ s with previousErr := s.err, err := fin e } : Pid).finish (fin T) df).1 = fin v ∧ Rep v ∧
      |v - (o + kp * x + kv * D + ki * ((es.sum + x) * T))| ≤ pidError kp kv ki o T W N := by
  obtain ⟨h1, h2, h3, h4, h5, h6, h7, h8, h9, I, h10, h11, h12⟩ := hs
  have hW0 : 0 ≤ W := (abs_nonneg _).trans hx
  have hbig : (2 : ℝ) ^ 100 ≤ 2 ^ 120 := by norm_num
  have hWT0 : 0 ≤ W * T := by positivity
  have hN1 : (es.length : ℝ) + 1 ≤ N := by exact_mod_cast hn
  have hN0 : (1 : ℝ) ≤ N := by linarith [(Nat.cast_nonneg es.length : (0 : ℝ) ≤ es.length)]
  have hsum : |es.sum * T + x * T| ≤ N * (W * T) := by
    have k1 := sum_abs_le es W h8
    have k2 := abs_add_le es.sum x
    rw [← add_mul, abs_mul, abs_of_pos hT, ← mul_assoc]
    refine mul_le_mul_of_nonneg_right ?_ hT.le
    have k3 : ((es.length : ℝ) + 1) * W ≤ N * W := mul_le_mul_of_nonneg_right hN1 hW0
    linarith
  have hWTb : W * T ≤ 2 ^ 120 := by
    have : 1 * (W * T) ≤ N * (W * T) := mul_le_mul_of_nonneg_right hN0 hWT0
    linarith
  obtain ⟨J, j1, j2, j3⟩ := integral_step (n := es.length) h11 hT (by omega) e3 e4 hsum hW0 h12 (hNW.trans hbig) hWTb
  have hstate : ({ s with previousErr := s.err, err := fin e } : Pid).finish (fin T) df =
      (add (add (add (fin o) (F32.mul (fin kp) (fin e))) (F32.mul (fin kv) (fin d))) (F32.mul (fin ki) (fin J)),
        ⟨fin kp, fin kv, fin ki, fin T, fin t, fin o, fin e, s.err, fin d, fin J, false⟩) := by
    unfold Pid.finish
    by_cases hf : s.firstIteration = true
    · rw [if_pos hf] at d1
      simp only [hf, if_true, h1, h2, h3, h4, h5, h6, h10, j1, ← d1]
    · rw [if_neg hf] at d1
      rw [Bool.not_eq_true] at hf
      simp only [hf, Bool.false_eq_true, if_false, h1, h2, h3, h4, h5, h6, h10, j1, d1]
  have h22 : (2 : ℝ) ^ (-22 : ℤ) = 1 / 4194304 := by norm_num
  have h20 : (2 : ℝ) ^ (-20 : ℤ) = 1 / 1048576 := by norm_num
  rw [hstate]
  refine ⟨⟨rfl, rfl, rfl, rfl, rfl, rfl, by simp, ?_, ?_, J, rfl, j2, ?_⟩, ?_⟩
  · intro y hy
    rcases List.mem_append.1 hy with hy | hy
    · exact h8 y hy
    · rw [List.mem_singleton.1 hy]
      exact hx
  · intro y hy
    rw [List.getLast?_concat] at hy
    rw [← Option.some.inj hy]
    exact ⟨e, rfl, e2, e3, e4⟩
  · rw [List.sum_append, List.sum_singleton, List.length_append, List.length_singleton, add_mul]
    exact j3
  · -- magnitudes of the terms
    set Is := es.sum * T + x * T with hIs
    have hN' : (N : ℝ) ≤ 1048576 := by
      have : N ≤ 1048576 := by omega
      exact_mod_cast this
    have h149 : (2 : ℝ) ^ (-149 : ℤ) = 2 * 2 ^ (-150 : ℤ) := by
      rw [show (-149 : ℤ) = 1 + -150 by norm_num, zpow_add₀ (by norm_num)]
      norm_num
    have h146 : (2 : ℝ) ^ (-146 : ℤ) = 16 * 2 ^ (-150 : ℤ) := by
      rw [show (-146 : ℤ) = 4 + -150 by norm_num, zpow_add₀ (by norm_num)]
      norm_num
    have hη := eta_pos
    have hη1 := eta_le
    have hη2 : (2 : ℝ) ^ 100 * 2 ^ (-150 : ℤ) ≤ 1 / 1048576 := by
      rw [← h20, ← zpow_natCast (2 : ℝ) 100, ← zpow_add₀ (by norm_num)]
      exact zpow_le_zpow_right₀ (by norm_num) (by norm_num)
    have hkvη : kv * 2 ^ (-150 : ℤ) ≤ 1 / 1048576 := (mul_le_mul_of_nonneg_right hkvb hη.le).trans hη2
    have hkiη : ki * 2 ^ (-150 : ℤ) ≤ 1 / 1048576 := (mul_le_mul_of_nonneg_right hkib hη.le).trans hη2
    have hkiη0 : 0 ≤ ki * 2 ^ (-150 : ℤ) := by positivity
    have hkvη0 : 0 ≤ kv * 2 ^ (-150 : ℤ) := by positivity
    have hkiN : N * (ki * 2 ^ (-150 : ℤ)) ≤ 1 := by
      refine (mul_le_mul hN' hkiη hkiη0 (by norm_num)).trans (by norm_num)
    have m1 : |kp * e| ≤ 2 * (kp * W) := by
      rw [abs_mul, abs_of_nonneg hkp]
      have := mul_le_mul_of_nonneg_left e4 hkp
      linarith
    have m2 : |kp * e - kp * x| ≤ 1 / 4194304 * (kp * W) := by
      rw [← mul_sub, abs_mul, abs_of_nonneg hkp]
      have := mul_le_mul_of_nonneg_left e3 hkp
      rw [h22] at this
      linarith
    have m3 : |kv * d - kv * D| ≤ 1 / 1048576 * (kv * (W / T)) + 2 * (kv * 2 ^ (-150 : ℤ)) := by
      rw [← mul_sub, abs_mul, abs_of_nonneg hkv]
      have := mul_le_mul_of_nonneg_left d3 hkv
      rw [h20, h149] at this
      linarith
    have m4 : |kv * D| ≤ 2 * (kv * (W / T)) := by
      rw [abs_mul, abs_of_nonneg hkv]
      have := mul_le_mul_of_nonneg_left d4 hkv
      linarith
    have m5 : |ki * J - ki * Is| ≤ 1 / 4194304 * (N * (ki * (N * (W * T)))) + 1 / 1048576 * (ki * (N * (W * T))) +
        4 * (N * (ki * 2 ^ (-150 : ℤ))) := by
      rw [← mul_sub, abs_mul, abs_of_nonneg hki]
      have hR : (0 : ℝ) ≤ 2 ^ (-22 : ℤ) * (N * (W * T)) + 2 ^ (-20 : ℤ) * (W * T) + 2 ^ (-148 : ℤ) := by positivity
      have h13 := mul_le_mul_of_nonneg_right hN1 hR
      push_cast at j3
      have := mul_le_mul_of_nonneg_left (j3.trans h13) hki
      rw [h22, h20, four_eta] at this
      refine this.trans (le_of_eq ?_)
      ring
    have m6 : |ki * Is| ≤ ki * (N * (W * T)) := by
      rw [abs_mul, abs_of_nonneg hki]
      exact mul_le_mul_of_nonneg_left hsum hki
    have n1 : 0 ≤ kp * W := by positivity
    have n2 : 0 ≤ kv * (W / T) := by positivity
    have n3 : 0 ≤ ki * (N * (W * T)) := by positivity
    have hNZ : N * (ki * (N * (W * T))) ≤ 1048576 * (ki * (N * (W * T))) := mul_le_mul_of_nonneg_right hN' n3
    have m7 := le_of_err m3
    have m8 := le_of_err m5
    have hbb : (16 : ℝ) * 2 ^ 100 + 16 ≤ 2 ^ 120 := by norm_num
    obtain ⟨v, v1, v2, v3⟩ := output_fin (kp := kp) (kv := kv) (ki := ki) (e := e) (d := d) (I := J)
      (S := o + 2 * (kp * W) + (2 * (kv * (W / T)) + (1 / 1048576 * (kv * (W / T)) + 2 * (kv * 2 ^ (-150 : ℤ)))) +
        (ki * (N * (W * T)) + (1 / 4194304 * (N * (ki * (N * (W * T)))) + 1 / 1048576 * (ki * (N * (W * T))) +
        4 * (N * (ki * 2 ^ (-150 : ℤ))))))
      ho (by rw [abs_of_nonneg ho0]; linarith)
      (by
        clear hη2 hWb hWT hNW hkvb hkib h20 h22 h149 h146
        generalize kv * (2 : ℝ) ^ (-150 : ℤ) = a1 at *
        generalize ki * (2 : ℝ) ^ (-150 : ℤ) = a2 at *
        generalize (2 : ℝ) ^ 100 = M at *
        generalize (2 : ℝ) ^ 120 = M' at *
        generalize (2 : ℝ) ^ (-150 : ℤ) = η at *
        generalize kv * (W / T) = b1 at *
        generalize ki * (N * (W * T)) = b2 at *
        generalize kp * W = b3 at *
        linarith)
    refine ⟨v, v1, v2, ?_⟩
    have hlaw : o + kp * x + kv * D + ki * ((es.sum + x) * T) = o + kp * x + kv * D + ki * Is := by
      rw [hIs]
      ring
    rw [hlaw]
    have split : v - (o + kp * x + kv * D + ki * Is) = (v - (o + kp * e + kv * d + ki * J)) + (kp * e - kp * x) +
        (kv * d - kv * D) + (ki * J - ki * Is) := by ring
    rw [split]
    have t1 := abs_add_le ((v - (o + kp * e + kv * d + ki * J)) + (kp * e - kp * x) + (kv * d - kv * D)) (ki * J - ki * Is)
    have t2 := abs_add_le ((v - (o + kp * e + kv * d + ki * J)) + (kp * e - kp * x)) (kv * d - kv * D)
    have t3 := abs_add_le (v - (o + kp * e + kv * d + ki * J)) (kp * e - kp * x)
    have h19 : (2 : ℝ) ^ (-19 : ℤ) = 1 / 524288 := by norm_num
    have h18 : (2 : ℝ) ^ (-18 : ℤ) = 1 / 262144 := by norm_num
    rw [h22, four_eta] at v3
    rw [pidError, h19, h18, h22, h146]
    have e5 : (16 : ℝ) * 2 ^ (-150 : ℤ) * (1 + kv + ki * N) = 16 * 2 ^ (-150 : ℤ) + 16 * (kv * 2 ^ (-150 : ℤ)) +
        16 * (N * (ki * 2 ^ (-150 : ℤ))) := by ring
    have e6 : ((N : ℝ) + 8) * (1 / 4194304) * (ki * (N * (W * T))) = 1 / 4194304 * (N * (ki * (N * (W * T)))) +
        8 / 4194304 * (ki * (N * (W * T))) := by ring
    rw [e5, e6]
    have hkiN0 : 0 ≤ N * (ki * (2 : ℝ) ^ (-150 : ℤ)) := by positivity
    clear hη2 hWb hWT hNW hkvb hkib hbb hbig hb hWTb h20 h22 h149 h146 h19 h18 e5 e6 split hstate h12 j3 e3 h9 d3
    generalize N * (ki * (2 : ℝ) ^ (-150 : ℤ)) = a2 at *
    generalize kv * (2 : ℝ) ^ (-150 : ℤ) = a1 at *
    generalize (2 : ℝ) ^ (-150 : ℤ) = η at *
    generalize N * (ki * (N * (W * T))) = b4 at *
    generalize kv * (W / T) = b1 at *
    generalize ki * (N * (W * T)) = b2 at *
    generalize kp * W = b3 at *
    linarith

/-- The derivative of the last errors. -/
theorem pid_derivative {kp kv ki t o T W S : ℝ} (hT : 0 < T) (hWb : W ≤ 2 ^ 100) (hWT : W / T ≤ 2 ^ 100) (es : List ℝ)
    (s : Pid) (hs : PidNear kp kv ki t o T W S es s) {x e : ℝ} (hx : |x| ≤ W) (e2 : Rep e)
    (e3 : |e - x| ≤ 2 ^ (-22 : ℤ) * W) (e4 : |e| ≤ 2 * W) :
    (∃ d, (if s.firstIteration = true then fin 0 else div (sub (fin e) s.err) (fin T)) = fin d ∧
      |d - lastSlope T es x| ≤ 2 ^ (-20 : ℤ) * (W / T) + 2 ^ (-149 : ℤ)) ∧
    (∃ d, (if s.firstIteration = true then fin 0 else div (abs (sub (fin e) s.err)) (fin T)) = fin d ∧
      |d - (|lastSlope T es x|)| ≤ 2 ^ (-20 : ℤ) * (W / T) + 2 ^ (-149 : ℤ)) ∧
    |lastSlope T es x| ≤ 2 * (W / T) := by
  obtain ⟨h1, h2, h3, h4, h5, h6, h7, h8, h9, -⟩ := hs
  have hW0 : 0 ≤ W := (abs_nonneg _).trans hx
  have hbig : (2 : ℝ) ^ 100 ≤ 2 ^ 120 := by norm_num
  have hpos : (0 : ℝ) ≤ 2 ^ (-20 : ℤ) * (W / T) + 2 ^ (-149 : ℤ) := by positivity
  unfold lastSlope
  cases hl : es.getLast? with
  | none =>
    have : es = [] := List.getLast?_eq_none_iff.1 hl
    rw [if_pos (h7.2 this), if_pos (h7.2 this)]
    exact ⟨⟨0, rfl, by simpa using hpos⟩, ⟨0, rfl, by simpa using hpos⟩, by simp; positivity⟩
  | some x' =>
    have hne : es ≠ [] := by rintro rfl; simp at hl
    obtain ⟨e', q1, q2, q3, q4⟩ := h9 x' hl
    have hx' : |x'| ≤ W := h8 x' (List.mem_of_getLast? hl)
    obtain ⟨d, w1, -, w3, w4⟩ := derivative_step hT e2 q2 e3 q3 e4 q4 hx hx' (hWb.trans hbig) (hWT.trans hbig)
    rw [if_neg (fun h => hne (h7.1 h)), if_neg (fun h => hne (h7.1 h)), q1]
    refine ⟨⟨d, w1, w3⟩, ⟨|d|, ?_, (abs_abs_sub_abs_le _ _).trans w3⟩, w4⟩
    have hsub : |e - e'| ≤ 2 ^ 127 := by
      have := abs_sub e e'
      have hb2 : (4 : ℝ) * 2 ^ 100 ≤ 2 ^ 127 := by norm_num
      generalize (2 : ℝ) ^ 100 = M at *
      generalize (2 : ℝ) ^ 127 = M' at *
      linarith
    rw [sub_fin hsub] at w1 ⊢
    rw [div, if_neg hT.ne'] at w1
    rw [F32.abs, div, if_neg hT.ne', show |rnd (e - e')| / T = |rnd (e - e') / T| by rw [abs_div, abs_of_pos hT]]
    have hd : |rnd (rnd (e - e') / T)| = rnd (|rnd (e - e') / T|) := by
      rcases abs_cases (rnd (e - e') / T) with ⟨hc, hs⟩ | ⟨hc, hs⟩
      · rw [hc, abs_of_nonneg (le_rnd_of_le Rep.zero.grid hs)]
      · rw [hc, rnd_neg, abs_of_nonpos (rnd_le_of_le Rep.zero.grid hs.le)]
    have hq : |rnd (e - e') / T| ≤ 2 ^ 127 := by
      have p := rnd_add e2.grid q2.neg.grid
      rw [← sub_eq_add_neg, two_neg24] at p
      have p' := le_of_err p
      have p2 := abs_sub e e'
      have p3 : |rnd (e - e') / T| ≤ 5 * (W / T) := by
        rw [abs_div, abs_of_pos hT, ← mul_div_assoc]
        exact div_le_div_of_nonneg_right (by linarith) hT.le
      have hb2 : (5 : ℝ) * 2 ^ 100 ≤ 2 ^ 127 := by norm_num
      generalize (2 : ℝ) ^ 100 = M at *
      generalize (2 : ℝ) ^ 127 = M' at *
      linarith
    rw [round_fin hq] at w1
    rw [round_fin (by rwa [abs_abs]), ← hd, fin.inj w1]

/-- The error after the dead band, as `computeFeedbackAbsolute` computes it. Helper of the proofs. Not in /repo:
specification. -/
noncomputable def bandErrAbs' (t e : F32) : F32 := open Classical in if lt t e then sub e t else fin 0

theorem computeFeedbackAbsolute_eq (s : Pid) (e : F32) : s.computeFeedbackAbsolute e =
    ({ s with previousErr := s.err, err := bandErrAbs' s.threshold e } : Pid).finish s.period
      (abs (sub (bandErrAbs' s.threshold e) s.err)) := by
  unfold Pid.computeFeedbackAbsolute bandErrAbs'
  dsimp only
  split_ifs <;> rfl

theorem bandAbs_fin {t c W : ℝ} (ht0 : 0 ≤ t) (ht : Rep t) (hc : Rep c) (hW : |c| ≤ W) (hb : W ≤ 2 ^ 120) :
    ∃ e, bandErrAbs' (fin t) (fin c) = fin e ∧ Rep e ∧ |e - max (c - t) 0| ≤ 2 ^ (-22 : ℤ) * W ∧ |e| ≤ 2 * W := by
  have hW0 : 0 ≤ W := (abs_nonneg _).trans hW
  by_cases h : t < c
  · have h' : lt (fin t) (fin c) := h
    have hcW := (abs_le.1 hW).2
    have hb' : |c - t| ≤ 2 ^ 127 := by
      rw [abs_of_pos (by linarith)]
      have : (2 : ℝ) ^ 120 ≤ 2 ^ 127 := by norm_num
      linarith
    rw [bandErrAbs', if_pos h', sub_fin hb', max_eq_left (by linarith)]
    have hx := rnd_add hc.grid ht.neg.grid
    rw [← sub_eq_add_neg, two_neg24, abs_of_pos (a := c - t) (by linarith)] at hx
    have h22 : (2 : ℝ) ^ (-22 : ℤ) = 1 / 4194304 := by norm_num
    refine ⟨_, rfl, rnd_rep hb', ?_, ?_⟩
    · rw [h22]
      linarith
    · have := le_of_err hx
      rw [abs_of_pos (a := c - t) (by linarith)] at this
      linarith
  · have h' : ¬ lt (fin t) (fin c) := h
    rw [bandErrAbs', if_neg h', max_eq_right (by linarith)]
    exact ⟨0, rfl, Rep.zero, by simp; positivity, by simp; positivity⟩

/-! ### Whole histories -/

/-- A call of one of the two feedback functions. Not in /repo: specification. -/
inductive PidSample where
  | feedback (command sensor period : F32)
  | absolute (err : F32)

/-- The feedback of a call and the controller after it. Not in /repo: specification. -/
noncomputable def pidSample (s : Pid) : PidSample → F32 × Pid
  | .feedback c m pp => s.computeFeedback c m pp
  | .absolute e => s.computeFeedbackAbsolute e

/-- The controller after a list of calls. Not in /repo: specification. -/
noncomputable def pidRun (s : Pid) (h : List PidSample) : Pid := h.foldl (fun s x => (pidSample s x).2) s

/-- `x` is the exact error, after the dead band with threshold `t`, of a call with floats of magnitude at most `W`. Not in
/repo: specification. -/
inductive SampleError (t W : ℝ) : PidSample → ℝ → Prop
  | feedback {c m : ℝ} (pp : F32) (hc : Rep c) (hm : Rep m) (h : |c - m| ≤ W) :
    SampleError t W (.feedback (fin c) (fin m) pp) (deadBand t (c - m))
  | absolute {e : ℝ} (he : Rep e) (h : |e| ≤ W) : SampleError t W (.absolute (fin e)) (max (e - t) 0)

/-- The derivative in the result of a call: its magnitude in the absolute version. Not in /repo: specification. -/
noncomputable def sampleSlope (x : PidSample) (d : ℝ) : ℝ :=
  match x with
  | .feedback _ _ _ => d
  | .absolute _ => |d|

theorem pid_step {kp kv ki t o T W : ℝ} {N : ℕ} (hkp : 0 ≤ kp) (hkv : 0 ≤ kv) (hki : 0 ≤ ki) (ht0 : 0 ≤ t) (ho0 : 0 ≤ o)
    (hT : 0 < T) (ht : Rep t) (ho : Rep o) (hN : N ≤ 2 ^ 20) (hWb : W ≤ 2 ^ 100) (hWT : W / T ≤ 2 ^ 100)
    (hNW : N * (W * T) ≤ 2 ^ 100) (hkvb : kv ≤ 2 ^ 100) (hkib : ki ≤ 2 ^ 100)
    (hb : o + kp * W + kv * (W / T) + ki * (N * (W * T)) ≤ 2 ^ 100)
    (es : List ℝ) (s : Pid) (hs : PidNear kp kv ki t o T W (N * (W * T)) es s) (hn : es.length + 1 ≤ N)
    {q : PidSample} {x : ℝ} (hq : SampleError t W q x) :
    PidNear kp kv ki t o T W (N * (W * T)) (es ++ [x]) (pidSample s q).2 ∧
    ∃ v, (pidSample s q).1 = fin v ∧ Rep v ∧
      |v - pidLaw kp kv ki o T (sampleSlope q (lastSlope T es x)) es x| ≤ pidError kp kv ki o T W N := by
  have hbig : (2 : ℝ) ^ 100 ≤ 2 ^ 120 := by norm_num
  have h4 := hs.2.2.2.1
  have h6 := hs.2.2.2.2.2.1
  cases hq with
  | @feedback c m pp hc hm hcm =>
    obtain ⟨e, e1, e2, e3, e4⟩ := band_fin ht0 ht hc hm hcm (hWb.trans hbig)
    have hx := (deadBand_abs_le t (c - m) ht0).trans hcm
    obtain ⟨⟨d, d1, d3⟩, -, d4⟩ := pid_derivative hT hWb hWT es s hs hx e2 e3 e4
    rw [pidSample, computeFeedback_eq, h4, e1, h6]
    have := pid_core hkp hkv hki ho0 hT ho hN hWb hWT hNW hkvb hkib hb es s hs hn hx e2 e3 e4 d1 d3 d4
    rw [h4, h6] at this
    exact this
  | @absolute c hc hcW =>
    obtain ⟨e, e1, e2, e3, e4⟩ := bandAbs_fin ht0 ht hc hcW (hWb.trans hbig)
    have hx : |max (c - t) 0| ≤ W := by
      rw [abs_of_nonneg (le_max_right _ _)]
      exact max_le (by linarith [(abs_le.1 hcW).2]) ((abs_nonneg _).trans hcW)
    obtain ⟨-, ⟨d, d1, d3⟩, d4⟩ := pid_derivative hT hWb hWT es s hs hx e2 e3 e4
    rw [pidSample, computeFeedbackAbsolute_eq, h4, e1, h6]
    have := pid_core hkp hkv hki ho0 hT ho hN hWb hWT hNW hkvb hkib hb es s hs hn hx e2 e3 e4 d1 d3 (by rwa [abs_abs])
    rw [h4, h6] at this
    exact this

theorem construct_fin {kp kv ki t o T : ℝ} (hv : ValidPid kp kv ki t o T) :
    Pid.construct (fin kp) (fin kv) (fin ki) (fin t) (fin o) (fin T) =
      .ok ⟨fin kp, fin kv, fin ki, fin T, fin t, fin o, fin 0, fin 0, fin 0, fin 0, true⟩ := by
  obtain ⟨h1, h2, h3, h4, h5, h6⟩ := hv
  unfold Pid.construct
  dsimp only
  rw [if_pos]
  refine ⟨not_lt.2 h1, not_lt.2 h2, not_lt.2 h3, not_lt.2 h4, not_lt.2 h5, ?_⟩
  rintro (h | h)
  · exact absurd h (not_lt.2 h6.le)
  · exact h6.ne' h

theorem pid_run {kp kv ki t o T W : ℝ} {N : ℕ} (hv : ValidPid kp kv ki t o T) (ht : Rep t) (ho : Rep o) (hN : N ≤ 2 ^ 20)
    (hWb : W ≤ 2 ^ 100) (hWT : W / T ≤ 2 ^ 100) (hNW : N * (W * T) ≤ 2 ^ 100) (hkvb : kv ≤ 2 ^ 100) (hkib : ki ≤ 2 ^ 100)
    (hb : o + kp * W + kv * (W / T) + ki * (N * (W * T)) ≤ 2 ^ 100) {h : List PidSample} {xs : List ℝ}
    (hh : List.Forall₂ (SampleError t W) h xs) (es : List ℝ) (s : Pid)
    (hs : PidNear kp kv ki t o T W (N * (W * T)) es s) (hn : es.length + h.length ≤ N) :
    PidNear kp kv ki t o T W (N * (W * T)) (es ++ xs) (pidRun s h) := by
  induction hh generalizing es s with
  | nil => simpa [pidRun] using hs
  | @cons q x h xs hq _ ih =>
    have h1 := (pid_step hv.1 hv.2.1 hv.2.2.1 hv.2.2.2.1 hv.2.2.2.2.1 hv.2.2.2.2.2 ht ho hN hWb hWT hNW hkvb hkib hb es s hs
      (by simp only [List.length_cons] at hn; omega) hq).1
    have h2 := ih _ _ h1 (by
      simp only [List.length_cons, List.length_append, List.length_nil] at hn ⊢; omega)
    simpa [pidRun] using h2

/-- A controller with a valid configuration follows the PID law of C39: after any history of calls of both feedback
functions with samples of magnitude at most `W`, the next feedback is finite and no farther from the law than `pidError`.
The period given in each call is ignored, as in C39. -/
theorem C95_feedback (kp kv ki t o T W : ℝ) (hv : ValidPid kp kv ki t o T) (ht : Rep t) (ho : Rep o)
    (h : List PidSample) (xs : List ℝ) (hh : List.Forall₂ (SampleError t W) h xs) (q : PidSample) (x : ℝ)
    (hq : SampleError t W q x) (hN : h.length + 1 ≤ 2 ^ 20) (hWb : W ≤ 2 ^ 100) (hWT : W / T ≤ 2 ^ 100)
    (hNW : (h.length + 1) * (W * T) ≤ 2 ^ 100) (hkvb : kv ≤ 2 ^ 100) (hkib : ki ≤ 2 ^ 100)
    (hb : o + kp * W + kv * (W / T) + ki * ((h.length + 1) * (W * T)) ≤ 2 ^ 100) :
    ∃ s v, Pid.construct (fin kp) (fin kv) (fin ki) (fin t) (fin o) (fin T) = .ok s ∧
      (pidSample (pidRun s h) q).1 = fin v ∧ Rep v ∧
      |v - pidLaw kp kv ki o T (sampleSlope q (lastSlope T xs x)) xs x| ≤ pidError kp kv ki o T W (h.length + 1) := by
  have hNW' : ((h.length + 1 : ℕ) : ℝ) * (W * T) ≤ 2 ^ 100 := by push_cast; exact hNW
  have hb' : o + kp * W + kv * (W / T) + ki * ((h.length + 1 : ℕ) * (W * T)) ≤ 2 ^ 100 := by push_cast; exact hb
  have hs0 : PidNear kp kv ki t o T W ((h.length + 1 : ℕ) * (W * T)) []
      ⟨fin kp, fin kv, fin ki, fin T, fin t, fin o, fin 0, fin 0, fin 0, fin 0, true⟩ :=
    ⟨rfl, rfl, rfl, rfl, rfl, rfl, by simp, by simp, by simp, 0, rfl, Rep.zero, by simp⟩
  have h1 := pid_run hv ht ho hN hWb hWT hNW' hkvb hkib hb' hh [] _ hs0 (by simp)
  rw [List.nil_append] at h1
  obtain ⟨v, h2, h3, h4⟩ := (pid_step hv.1 hv.2.1 hv.2.2.1 hv.2.2.2.1 hv.2.2.2.2.1 hv.2.2.2.2.2 ht ho hN hWb hWT hNW' hkvb
    hkib hb' _ _ h1 (by rw [← hh.length_eq]) hq).2
  refine ⟨_, v, construct_fin hv, h2, h3, ?_⟩
  push_cast at h4
  exact h4

/-- A controller run for 10000 steps of 1/64 with errors of at most 1: the feedback is exact within 1/5. -/
example (h : List PidSample) (xs : List ℝ) (hh : List.Forall₂ (SampleError 0 1) h xs) (hl : h.length + 1 = 10000) :
    ∃ s v, Pid.construct (fin 2) (fin (1 / 8)) (fin (1 / 2)) (fin 0) (fin 0) (fin (1 / 64)) = .ok s ∧
      ((pidRun s h).computeFeedback (fin 1) (fin (1 / 2)) (fin (-1))).1 = fin v ∧
      |v - pidLaw 2 (1 / 8) (1 / 2) 0 (1 / 64) (lastSlope (1 / 64) xs (deadBand 0 (1 - 1 / 2))) xs
        (deadBand 0 (1 - 1 / 2))| ≤ 1 / 5 := by
  have hl' : (h.length : ℝ) + 1 = 10000 := by exact_mod_cast hl
  obtain ⟨s, v, h1, h2, -, h3⟩ := C95_feedback 2 (1 / 8) (1 / 2) 0 0 (1 / 64) 1 (by norm_num [ValidPid]) Rep.zero Rep.zero h xs
    hh _ _ (SampleError.feedback (fin (-1)) Rep.one ⟨1, -1, by norm_num, by norm_num, by norm_num, by norm_num⟩
    (by rw [abs_of_pos] <;> norm_num : |(1 : ℝ) - 1 / 2| ≤ 1)) (by omega) (by norm_num) (by norm_num)
    (by rw [hl']; norm_num) (by norm_num) (by norm_num) (by rw [hl']; norm_num)
  refine ⟨s, v, h1, h2, h3.trans ?_⟩
  rw [hl', pidError]
  norm_num

/-! ### Configurations and samples that are not numbers -/

/-- NaN, +∞ or a number at least 0. Not in /repo: specification. -/
def NotNegative : F32 → Prop
  | nan => True
  | pinf => True
  | ninf => False
  | fin x => 0 ≤ x

theorem checkPositif_iff (v : F32) : Pid.checkPositif v ↔ NotNegative v := by
  cases v <;> simp [Pid.checkPositif, NotNegative, lt]

/-- The constructor rejects negative parameters and -∞ only: it accepts NaN for each of them, the period included, and
then a period that is NaN or +∞. -/
theorem C95_accepts (kp kv ki t o T : F32) :
    (∃ s, Pid.construct kp kv ki t o T = .ok s) ↔
      NotNegative kp ∧ NotNegative kv ∧ NotNegative ki ∧ NotNegative t ∧ NotNegative o ∧ NotNegative T ∧ T ≠ fin 0 := by
  have hT : Pid.checkStriclyPositif T ↔ NotNegative T ∧ T ≠ fin 0 := by
    cases T with
    | nan => simp [Pid.checkStriclyPositif, NotNegative, le, lt, eq]
    | pinf => simp [Pid.checkStriclyPositif, NotNegative, le, lt, eq]
    | ninf => simp [Pid.checkStriclyPositif, NotNegative, le, lt]
    | fin x =>
      simp only [Pid.checkStriclyPositif, NotNegative, le, lt, eq, not_or, not_lt, ne_eq, fin.injEq]
  rw [← hT]
  simp only [← checkPositif_iff]
  unfold Pid.construct Pid.checkData
  dsimp only
  split_ifs with h
  · exact ⟨fun _ => h, fun _ => ⟨_, rfl⟩⟩
  · exact ⟨fun ⟨s, hs⟩ => by simp at hs, fun h' => absurd h' h⟩

/-- All parameters can be NaN. -/
example : ∃ s, Pid.construct nan nan nan nan nan nan = .ok s :=
  (C95_accepts _ _ _ _ _ _).2 ⟨trivial, trivial, trivial, trivial, trivial, trivial, by simp⟩

/-- A command or a measure that is NaN counts as an error of zero: the controller behaves as if the command were met. -/
theorem C95_nan_sample (s : Pid) (t : ℝ) (ht : s.threshold = fin t) (ht0 : 0 ≤ t) (a pp : F32) :
    s.computeFeedback nan a pp = s.computeFeedback (fin 0) (fin 0) pp ∧
    s.computeFeedback a nan pp = s.computeFeedback (fin 0) (fin 0) pp ∧
    s.computeFeedbackAbsolute nan = s.computeFeedbackAbsolute (fin 0) := by
  have z : sub (fin 0) (fin 0) = fin 0 := by
    rw [sub_fin (by norm_num), sub_zero, rnd_zero]
  have b0 : bandErr (fin t) (fin 0) = fin 0 := by
    have h1 : ¬ lt (fin t) (fin 0) := not_lt.2 ht0
    have h2 : ¬ lt (fin 0) (neg (fin t)) := not_lt.2 (show -t ≤ 0 by linarith)
    rw [bandErr, if_neg h1, if_neg h2]
  have bn : bandErr (fin t) nan = fin 0 := by
    rw [bandErr, if_neg (by simp [lt]), if_neg (by simp [lt])]
  have s1 : sub nan a = nan := by cases a <;> rfl
  have s2 : sub a nan = nan := by cases a <;> rfl
  refine ⟨?_, ?_, ?_⟩
  · rw [computeFeedback_eq, computeFeedback_eq, ht, z, b0, s1, bn]
  · rw [computeFeedback_eq, computeFeedback_eq, ht, z, b0, s2, bn]
  · have h1 : ¬ lt (fin t) (fin 0) := not_lt.2 ht0
    unfold Pid.computeFeedbackAbsolute
    dsimp only
    rw [ht, if_neg (by simp [lt]), if_neg h1]

/-- A controller that loses its sensor while 1 away from the command, with unit proportional gain, asks for nothing. -/
example : ∃ s, Pid.construct (fin 1) (fin 0) (fin 0) (fin 0) (fin 0) (fin 1) = .ok s ∧
    (s.computeFeedback (fin 1) (fin 0) (fin 1)).1 = fin 1 ∧ (s.computeFeedback (fin 1) nan (fin 1)).1 = fin 0 := by
  refine ⟨_, construct_fin (by norm_num [ValidPid]), ?_, ?_⟩
  · rw [computeFeedback_eq]
    have z : sub (fin 1) (fin 0) = fin 1 := by rw [sub, neg, add, neg_zero, add_zero, round_rep Rep.one]
    have b : bandErr (fin 0) (fin 1) = fin 1 := by rw [bandErr, if_pos (show lt (fin 0) (fin 1) from one_pos), z]
    simp only [z, b, Pid.finish, if_true, F32.mul, add, mul_one, mul_zero, add_zero, zero_add, zero_mul, round_rep Rep.one,
      round_rep Rep.zero]
  · rw [(C95_nan_sample _ 0 rfl le_rfl (fin 1) (fin 1)).2.1, computeFeedback_eq]
    have z : sub (fin 0) (fin 0) = fin 0 := by rw [sub, neg, add, neg_zero, add_zero, round_rep Rep.zero]
    have b : bandErr (fin 0) (fin 0) = fin 0 := by
      rw [bandErr, if_neg (show ¬ lt (fin 0) (fin 0) from lt_irrefl _)]
      split_ifs
      · rw [add, add_zero, round_rep Rep.zero]
      · rfl
    simp only [z, b, Pid.finish, if_true, F32.mul, add, mul_zero, zero_mul, add_zero, round_rep Rep.zero]

theorem mul_notFinite_right {a b : F32} (h : NotFinite b) : NotFinite (F32.mul a b) := by
  intro x
  rcases b with _ | _ | _ | b
  · cases a <;> simp [F32.mul]
  · cases a <;> simp only [F32.mul, infOf] <;> (try split_ifs) <;> simp
  · cases a <;> simp only [F32.mul, infOf] <;> (try split_ifs) <;> simp
  · exact absurd rfl (h b)

theorem finish_poison (s : Pid) (p d : F32) (h : NotFinite s.iErr) :
    NotFinite (s.finish p d).1 ∧ NotFinite (s.finish p d).2.iErr := by
  unfold Pid.finish
  dsimp only
  split_ifs
  · exact ⟨add_notFinite_right (mul_notFinite_right (add_notFinite_left h)), add_notFinite_left h⟩
  · exact ⟨add_notFinite_right (mul_notFinite_right (add_notFinite_left h)), add_notFinite_left h⟩

/-- Once the integral is not finite, no feedback is finite again, whatever the samples and even if the integral gain is
zero, and the integral stays so; changes of gains do not help. -/
theorem C95_poison (s : Pid) (h : NotFinite s.iErr) (xs : List PidSample) (q : PidSample) :
    NotFinite (pidRun s xs).iErr ∧ NotFinite (pidSample (pidRun s xs) q).1 ∧
    ∀ kp kv ki, NotFinite ((pidRun s xs).setGains kp kv ki).2.iErr := by
  have h1 : ∀ (s : Pid) (q : PidSample), NotFinite s.iErr →
      NotFinite (pidSample s q).1 ∧ NotFinite (pidSample s q).2.iErr := by
    intro s q hs
    cases q with
    | feedback c m pp =>
      rw [pidSample, computeFeedback_eq]
      exact finish_poison _ _ _ hs
    | absolute e =>
      rw [pidSample, computeFeedbackAbsolute_eq]
      exact finish_poison _ _ _ hs
  have h2 : NotFinite (pidRun s xs).iErr := by
    induction xs generalizing s with
    | nil => exact h
    | cons x xs ih => exact ih _ (h1 s x h).2
  refine ⟨h2, (h1 _ q h2).1, ?_⟩
  · intro kp kv ki
    unfold Pid.setGains
    split_ifs <;> exact h2

/-- One infinite measure is enough. -/
theorem C95_inf_sample (s : Pid) (t T c I : ℝ) (pp : F32) (ht : s.threshold = fin t) (hT : s.period = fin T) (hT0 : 0 < T)
    (hI : s.iErr = fin I) :
    (s.computeFeedback (fin c) pinf pp).2.iErr = ninf ∧ (s.computeFeedback (fin c) ninf pp).2.iErr = pinf := by
  have b1 : bandErr (fin t) ninf = ninf := by
    rw [bandErr, if_neg (by simp [lt]), if_pos (by simp [lt, neg])]
    rfl
  have b2 : bandErr (fin t) pinf = pinf := by
    rw [bandErr, if_pos (by simp [lt])]
    rfl
  have s1 : sub (fin c) pinf = ninf := rfl
  have s2 : sub (fin c) ninf = pinf := rfl
  have m1 : F32.mul ninf (fin T) = ninf := by
    simp only [F32.mul, infOf]
    rw [if_neg (by linarith), if_pos (by linarith)]
  have m2 : F32.mul pinf (fin T) = pinf := by
    simp only [F32.mul, infOf]
    rw [if_pos hT0]
  constructor
  · rw [computeFeedback_eq, ht, s1, b1, hT]
    unfold Pid.finish
    dsimp only
    split_ifs <;> · dsimp only; rw [m1, hI]; rfl
  · rw [computeFeedback_eq, ht, s2, b2, hT]
    unfold Pid.finish
    dsimp only
    split_ifs <;> · dsimp only; rw [m2, hI]; rfl

/-- A controller without integral gain is lost after one infinite measure, too. -/
example (xs : List PidSample) : ∃ s, Pid.construct (fin 1) (fin 0) (fin 0) (fin 0) (fin 0) (fin 1) = .ok s ∧
    NotFinite ((pidRun (s.computeFeedback (fin 1) pinf (fin (-1))).2 xs).computeFeedback (fin 1) (fin 1) (fin (-1))).1 := by
  refine ⟨_, construct_fin (by norm_num [ValidPid]), (C95_poison _ ?_ xs (.feedback (fin 1) (fin 1) (fin (-1)))).2.1⟩
  rw [(C95_inf_sample _ 0 1 1 0 (fin (-1)) rfl rfl (by norm_num) rfl).1]
  intro x
  simp

/-! ### A constant error -/

/-- Adding much less than the last bit changes nothing. -/
theorem rnd_absorb {J q : ℝ} (hJ : Rep J) (hq : 0 < q) (h : 2 ^ 25 * q < J) : rnd (J + q) = J := by
  have hJ0 : 0 < J := lt_trans (by positivity) h
  have h1 : J ≤ rnd (J + q) := le_rnd_of_le hJ.grid (by linarith)
  have h2 := rnd_nearest (J + q) hJ.grid
  rw [show J - (J + q) = -q by ring, abs_neg, abs_of_pos hq] at h2
  have h3 := (abs_le.1 h2).2
  by_contra hne
  have hlt : J < rnd (J + q) := lt_of_le_of_ne h1 (Ne.symm hne)
  have hlog : (2 : ℝ) ^ Int.log 2 |J| ≤ |J| := by
    have := Int.zpow_log_le_self (b := 2) (r := |J|) (by norm_num) (abs_pos.2 hJ0.ne')
    exact_mod_cast this
  obtain ⟨a, ha⟩ := multiple_of_ge (x := J) hJ.grid (Or.inr hlog)
  obtain ⟨b, hb⟩ := multiple_of_ge (x := J) (rnd_grid (J + q))
    (Or.inr (hlog.trans (by rw [abs_of_pos hJ0, abs_of_pos (by linarith)]; exact h1)))
  have hbit := abs_lt_lastBit J
  rw [abs_of_pos hJ0] at hbit
  have hl := two_zpow_pos (lastBit J)
  generalize (2 : ℝ) ^ lastBit J = l at *
  generalize rnd (J + q) = r at *
  have hab : (a : ℝ) < b := by
    rw [ha, hb] at hlt
    exact lt_of_mul_lt_mul_right hlt hl.le
  have hab' : (a : ℝ) + 1 ≤ b := by exact_mod_cast (show a < b by exact_mod_cast hab)
  have : J + l ≤ r := by
    rw [ha, hb]
    nlinarith
  norm_num at h hbit
  linarith

theorem integral_bounded_step {J q : ℝ} (hJ : Rep J) (hJ0 : 0 ≤ J) (hq : 0 < q) (hqr : Rep q) (hJq : J ≤ 2 ^ 26 * q)
    (hb : 2 ^ 26 * q ≤ 2 ^ 126) : ∃ J', add (fin J) (fin q) = fin J' ∧ Rep J' ∧ 0 ≤ J' ∧ J' ≤ 2 ^ 26 * q := by
  have hsum : |J + q| ≤ 2 ^ 127 := by
    rw [abs_of_nonneg (by linarith)]
    have : (2 : ℝ) ^ 126 * 2 = 2 ^ 127 := by norm_num
    have h26 : q ≤ 2 ^ 26 * q := by norm_num; linarith
    generalize (2 : ℝ) ^ 126 = M at *
    generalize (2 : ℝ) ^ 127 = M' at *
    linarith
  rw [add_fin hsum]
  refine ⟨_, rfl, rnd_rep hsum, le_rnd_of_le Rep.zero.grid (by linarith), ?_⟩
  rcases lt_or_ge (2 ^ 25 * q) J with h | h
  · rw [rnd_absorb hJ hq h]
    exact hJq
  · have := (abs_le.1 (rnd_add hJ.grid hqr.grid)).2
    rw [two_neg24, abs_of_nonneg (by linarith : 0 ≤ J + q)] at this
    norm_num at h ⊢
    linarith

/-- The integral of a constant error does not grow for ever: with no dead band it stays below 2^26 times the increment of
one call, after any number of calls, while the exact integral grows without bound. -/
theorem C95_integral_stops (kp kv ki o T c : ℝ) (hv : ValidPid kp kv ki 0 o T) (hc : Rep c) (hc0 : 0 < c)
    (hq : 0 < rnd (c * T)) (hb : 2 ^ 26 * rnd (c * T) ≤ 2 ^ 126) (pp : F32) (n : ℕ) :
    ∃ s J, Pid.construct (fin kp) (fin kv) (fin ki) (fin 0) (fin o) (fin T) = .ok s ∧
      (pidRun s (List.replicate n (.feedback (fin c) (fin 0) pp))).iErr = fin J ∧ 0 ≤ J ∧ J ≤ 2 ^ 26 * rnd (c * T) := by
  suffices H : ∀ (s : Pid) (J : ℝ), s.threshold = fin 0 → s.period = fin T → s.iErr = fin J → Rep J → 0 ≤ J →
      J ≤ 2 ^ 26 * rnd (c * T) → ∃ J', (pidRun s (List.replicate n (.feedback (fin c) (fin 0) pp))).iErr = fin J' ∧ 0 ≤ J' ∧
        J' ≤ 2 ^ 26 * rnd (c * T) by
    obtain ⟨J, h⟩ := H ⟨fin kp, fin kv, fin ki, fin T, fin 0, fin o, fin 0, fin 0, fin 0, fin 0, true⟩ 0 rfl rfl rfl
      Rep.zero le_rfl (by positivity)
    exact ⟨_, J, construct_fin hv, h⟩
  have hbig : rnd (c * T) ≤ 2 ^ 127 := by
    have : rnd (c * T) ≤ 2 ^ 26 * rnd (c * T) := by norm_num; linarith
    have h2 : (2 : ℝ) ^ 126 ≤ 2 ^ 127 := by norm_num
    linarith
  have hct : |c * T| ≤ 2 ^ 127 := by
    by_contra hcon
    have hcT : 0 < c * T := mul_pos hc0 hv.2.2.2.2.2
    rw [abs_of_pos hcT, not_le] at hcon
    have hg : Grid (2 ^ 127) := ⟨1, 127, by norm_num, by norm_num, by norm_num⟩
    have := le_rnd_of_le hg hcon.le
    have h3 : rnd (c * T) ≤ 2 ^ 100 := by
      have : (2 : ℝ) ^ 26 * 2 ^ 100 = 2 ^ 126 := by norm_num
      rw [← this] at hb
      exact le_of_mul_le_mul_left hb (by norm_num)
    have h4 : (2 : ℝ) ^ 100 < 2 ^ 127 := by norm_num
    linarith
  have hmul : F32.mul (fin c) (fin T) = fin (rnd (c * T)) := mul_fin hct
  have hsub : sub (fin c) (fin 0) = fin c := by
    rw [sub, neg, add, neg_zero, add_zero, round_rep hc]
  have hband : bandErr (fin 0) (fin c) = fin c := by
    have : lt (fin 0) (fin c) := hc0
    rw [bandErr, if_pos this, hsub]
  induction n with
  | zero => exact fun s J _ _ hJ _ h0 h1 => ⟨J, hJ, h0, h1⟩
  | succ n ih =>
    intro s J ht hT hJ hJr h0 h1
    obtain ⟨J', hadd, hr', h0', h1'⟩ := integral_bounded_step hJr h0 hq (rnd_rep hct) h1 hb
    have hstep : (s.computeFeedback (fin c) (fin 0) pp).2.iErr = fin J' ∧
        (s.computeFeedback (fin c) (fin 0) pp).2.threshold = fin 0 ∧
        (s.computeFeedback (fin c) (fin 0) pp).2.period = fin T := by
      rw [computeFeedback_eq, ht, hsub, hband, hT]
      unfold Pid.finish
      dsimp only
      split_ifs <;> · dsimp only; rw [hmul, hJ, hadd]; exact ⟨rfl, rfl, rfl⟩
    rw [List.replicate_succ]
    exact ih _ J' hstep.2.1 hstep.2.2 hstep.1 hr' h0' h1'

/-- A command of 1 with a period of 1: the integral never exceeds 2^26, though the exact one is the number of calls. -/
example (n : ℕ) : ∃ s J, Pid.construct (fin 1) (fin 0) (fin 1) (fin 0) (fin 0) (fin 1) = .ok s ∧
    (pidRun s (List.replicate n (.feedback (fin 1) (fin 0) (fin (-1))))).iErr = fin J ∧ 0 ≤ J ∧ J ≤ 2 ^ 26 := by
  have h1 : rnd (1 * 1) = 1 := by
    rw [one_mul]
    exact rnd_of_grid Rep.one.grid
  obtain ⟨s, J, h, hJ, h0, hb⟩ := C95_integral_stops 1 0 1 0 1 1 (by norm_num [ValidPid]) Rep.one one_pos
    (by rw [h1]; norm_num) (by rw [h1]; norm_num) (fin (-1)) n
  exact ⟨s, J, h, hJ, h0, by rwa [h1, mul_one] at hb⟩

/-- Inside the dead band the integral does not move at all: samples whose rounded difference is at most the threshold leave
it exactly as it was, after any number of them. -/
theorem C95_no_drift (s : Pid) (t T I : ℝ) (ht : s.threshold = fin t) (hT : s.period = fin T) (hI : s.iErr = fin I)
    (hIr : Rep I) (xs : List PidSample)
    (hx : ∀ x ∈ xs, (∃ (c m : ℝ) (pp : F32), x = .feedback (fin c) (fin m) pp ∧ |c - m| ≤ 2 ^ 127 ∧ |rnd (c - m)| ≤ t) ∨
      ∃ e, x = .absolute (fin e) ∧ e ≤ t) :
    (pidRun s xs).iErr = fin I := by
  have hm : F32.mul (fin 0) (fin T) = fin 0 := by
    rw [mul_fin (by norm_num), zero_mul, rnd_zero]
  have ha : add (fin I) (fin 0) = fin I := by
    rw [add, add_zero, round_rep hIr]
  induction xs generalizing s with
  | nil => exact hI
  | cons x xs ih =>
    have hstep : (pidSample s x).2.iErr = fin I ∧ (pidSample s x).2.threshold = fin t ∧
        (pidSample s x).2.period = fin T := by
      rcases hx x (by simp) with ⟨c, m, pp, rfl, h3, h4⟩ | ⟨e, rfl, h3⟩
      · have hb : bandErr (fin t) (sub (fin c) (fin m)) = fin 0 := by
          rw [sub_fin h3, bandErr, if_neg, if_neg]
          · exact not_lt.2 (show -t ≤ rnd (c - m) from (abs_le.1 h4).1)
          · exact not_lt.2 (abs_le.1 h4).2
        rw [pidSample, computeFeedback_eq, ht, hb, hT]
        unfold Pid.finish
        dsimp only
        split_ifs <;> · dsimp only; rw [hm, hI, ha]; exact ⟨rfl, rfl, rfl⟩
      · have hb : bandErrAbs' (fin t) (fin e) = fin 0 := if_neg (not_lt.2 h3)
        rw [pidSample, computeFeedbackAbsolute_eq, ht, hb, hT]
        unfold Pid.finish
        dsimp only
        split_ifs <;> · dsimp only; rw [hm, hI, ha]; exact ⟨rfl, rfl, rfl⟩
    exact ih _ hstep.2.1 hstep.2.2 hstep.1 (fun y hy => hx y (by simp [hy]))

/-- A measure that stays half a unit from the command, with a threshold of 1. -/
example (n : ℕ) : ∃ s, Pid.construct (fin 1) (fin 0) (fin 1) (fin 1) (fin 0) (fin 1) = .ok s ∧
    (pidRun s (List.replicate n (.feedback (fin 1) (fin (1 / 2)) (fin (-1))))).iErr = fin 0 := by
  refine ⟨_, construct_fin (by norm_num [ValidPid]), C95_no_drift _ 1 1 0 rfl rfl rfl Rep.zero _ ?_⟩
  intro x hx
  rw [List.eq_of_mem_replicate hx]
  refine Or.inl ⟨1, 1 / 2, fin (-1), rfl, by norm_num, ?_⟩
  have h : Grid (1 - 1 / 2) := ⟨1, -1, by norm_num, by norm_num, by norm_num⟩
  rw [rnd_of_grid h]
  norm_num

/-! ### Changes of gains and resets -/

open Classical in
/-- `setGains` accepts the same values, NaN included, and either takes all three gains or leaves everything as it was. -/
theorem C95_setGains (s : Pid) (kp kv ki : F32) :
    s.setGains kp kv ki = (if NotNegative kp ∧ NotNegative kv ∧ NotNegative ki then
      (Res.ok (), { s with kp := kp, kv := kv, ki := ki }) else (Res.throws, s)) := by
  unfold Pid.setGains
  simp only [checkPositif_iff]

/-- NaN gains are taken. -/
example (s : Pid) : (s.setGains nan nan nan).1 = .ok () := by
  rw [C95_setGains, if_pos ⟨trivial, trivial, trivial⟩]

/-- `previousErr` is overwritten before it is used. -/
theorem pidSample_previousErr (s : Pid) (x y : F32) (q : PidSample) :
    pidSample { s with previousErr := x } q = pidSample { s with previousErr := y } q := by
  cases q with
  | feedback c m pp =>
    rw [pidSample, pidSample, computeFeedback_eq, computeFeedback_eq]
  | absolute e =>
    rw [pidSample, pidSample, computeFeedbackAbsolute_eq, computeFeedbackAbsolute_eq]

theorem pidRun_previousErr (s : Pid) (x y : F32) (ys : List PidSample) (q : PidSample) :
    (pidSample (pidRun { s with previousErr := x } ys) q).1 = (pidSample (pidRun { s with previousErr := y } ys) q).1 := by
  cases ys with
  | nil => exact congrArg Prod.fst (pidSample_previousErr s x y q)
  | cons z ys =>
    have : (pidSample { s with previousErr := x } z).2 = (pidSample { s with previousErr := y } z).2 :=
      congrArg Prod.snd (pidSample_previousErr s x y z)
    show (pidSample (pidRun (pidSample _ z).2 ys) q).1 = (pidSample (pidRun (pidSample _ z).2 ys) q).1
    rw [this]

theorem pidSample_parameters (s : Pid) (q : PidSample) : (pidSample s q).2.kp = s.kp ∧ (pidSample s q).2.kv = s.kv ∧
    (pidSample s q).2.ki = s.ki ∧ (pidSample s q).2.threshold = s.threshold ∧
    (pidSample s q).2.staticOffset = s.staticOffset ∧ (pidSample s q).2.period = s.period := by
  cases q with
  | feedback c m pp =>
    rw [pidSample, computeFeedback_eq]
    unfold Pid.finish
    dsimp only
    split_ifs <;> exact ⟨rfl, rfl, rfl, rfl, rfl, rfl⟩
  | absolute e =>
    rw [pidSample, computeFeedbackAbsolute_eq]
    unfold Pid.finish
    dsimp only
    split_ifs <;> exact ⟨rfl, rfl, rfl, rfl, rfl, rfl⟩

theorem pidRun_parameters (xs : List PidSample) (r : Pid) : (pidRun r xs).kp = r.kp ∧ (pidRun r xs).kv = r.kv ∧
    (pidRun r xs).ki = r.ki ∧ (pidRun r xs).threshold = r.threshold ∧ (pidRun r xs).staticOffset = r.staticOffset ∧
    (pidRun r xs).period = r.period := by
  induction xs generalizing r with
  | nil => exact ⟨rfl, rfl, rfl, rfl, rfl, rfl⟩
  | cons x xs ih =>
    obtain ⟨a1, a2, a3, a4, a5, a6⟩ := ih (pidSample r x).2
    obtain ⟨b1, b2, b3, b4, b5, b6⟩ := pidSample_parameters r x
    exact ⟨a1.trans b1, a2.trans b2, a3.trans b3, a4.trans b4, a5.trans b5, a6.trans b6⟩

/-- After `initialize()` a controller answers like a new one with the same parameters, whatever happened before. -/
theorem C95_initialize (kp kv ki t o T : F32) (s : Pid) (h : Pid.construct kp kv ki t o T = .ok s) (xs ys : List PidSample)
    (q : PidSample) : (pidSample (pidRun (pidRun s xs).initialize ys) q).1 = (pidSample (pidRun s ys) q).1 := by
  have hs : s = ⟨kp, kv, ki, T, t, o, fin 0, fin 0, fin 0, fin 0, true⟩ := by
    unfold Pid.construct at h
    dsimp only at h
    split_ifs at h
    exact (Res.ok.inj h).symm
  obtain ⟨a1, a2, a3, a4, a5, a6⟩ := pidRun_parameters xs s
  have hr : (pidRun s xs).initialize = { s with previousErr := (pidRun s xs).previousErr } := by
    unfold Pid.«initialize» Pid.resetParameters
    rw [a1, a2, a3, a4, a5, a6, hs]
  rw [hr]
  exact pidRun_previousErr s _ s.previousErr ys q

/-- `initialize` with parameters succeeds exactly if the constructor does, and then any controller, whatever its state,
answers like the new one. -/
theorem C95_initializeWith (kp kv ki t o T : F32) (r : Pid) :
    (∀ s, Pid.construct kp kv ki t o T = .ok s → (r.initializeWith kp kv ki t o T).1 = .ok () ∧
      ∀ ys q, (pidSample (pidRun (r.initializeWith kp kv ki t o T).2 ys) q).1 = (pidSample (pidRun s ys) q).1) ∧
    (Pid.construct kp kv ki t o T = .throws → (r.initializeWith kp kv ki t o T).1 = .throws) := by
  unfold Pid.construct Pid.initializeWith
  dsimp only
  constructor
  · intro s h
    split_ifs at h with h1
    have h2 : Pid.checkData ⟨kp, kv, ki, T, t, o, r.err, r.previousErr, r.dErr, r.iErr, r.firstIteration⟩ := h1
    rw [if_pos h2]
    refine ⟨rfl, fun ys q => ?_⟩
    rw [← Res.ok.inj h]
    exact pidRun_previousErr ⟨kp, kv, ki, T, t, o, fin 0, fin 0, fin 0, fin 0, true⟩ _ _ ys q
  · intro h
    split_ifs at h with h1
    have h2 : ¬ Pid.checkData ⟨kp, kv, ki, T, t, o, r.err, r.previousErr, r.dErr, r.iErr, r.firstIteration⟩ := h1
    rw [if_neg h2]

/-- Even after an infinite measure. -/
example : ∃ s, Pid.construct (fin 1) (fin 1) (fin 1) (fin 0) (fin 0) (fin 1) = .ok s ∧
    ((pidRun s [.feedback (fin 1) pinf (fin 0)]).initialize.computeFeedback (fin 0) (fin 0) (fin 0)).1 =
      (s.computeFeedback (fin 0) (fin 0) (fin 0)).1 := by
  have h := construct_fin (kp := 1) (kv := 1) (ki := 1) (t := 0) (o := 0) (T := 1) (by norm_num [ValidPid])
  exact ⟨_, h, C95_initialize _ _ _ _ _ _ _ h [.feedback (fin 1) pinf (fin 0)] [] (.feedback (fin 0) (fin 0) (fin 0))⟩

end F32

end AlMath
