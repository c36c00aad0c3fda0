import Verif.AcqPtsProps
import Verif.GprEx

set_option linter.all false

/-! # The noise that `LogExp` subtracts (C158; gpry/acquisition_functions.py:893-896, 974-982, gpry/gpr.py:684, 787-817)

`gp.noise_level` of the modelled regressor, as the acquisition functions read it. -/

namespace GPry.AcqPts

open GPry Acq Predict

variable {d n : ℕ}

/-- **C158**: `sigma_n`, if given, is used whatever the surrogate has; otherwise a single noise level of the surrogate is used as if it had been given. -/
theorem C158_given (cdf pdf : ℝ → ℝ) (g : Surrogate d n) (X : List (Fin d → ℝ)) (zeta s : ℝ) (noise : Acq.Noise) :
    (Leaf.logExp zeta (some s)).eval cdf pdf { g with noise := noise } X = (Leaf.logExp zeta (some s)).eval cdf pdf g X ∧
    (Leaf.nonlinear zeta (some s)).eval cdf pdf { g with noise := noise } X = (Leaf.nonlinear zeta (some s)).eval cdf pdf g X ∧
    (Leaf.logExp zeta none).eval cdf pdf { g with noise := .scalar s } X = (Leaf.logExp zeta (some s)).eval cdf pdf g X ∧
    (Leaf.nonlinear zeta none).eval cdf pdf { g with noise := .scalar s } X = (Leaf.nonlinear zeta (some s)).eval cdf pdf g X :=
  ⟨rfl, rfl, rfl, rfl⟩

theorem sum_sq_dev (l : List ℝ) (c : ℝ) : (l.map fun x => (x - c) ^ 2).sum = (l.map fun x => x ^ 2).sum - 2 * c * l.sum + l.length * c ^ 2 := by
  induction l with
  | nil => simp
  | cons x l ih =>
    simp only [List.map_cons, List.sum_cons, ih, List.length_cons]
    push_cast
    ring

theorem sum_sq_zero {l : List ℝ} {c : ℝ} (h : (l.map fun x => (x - c) ^ 2).sum = 0) : ∀ x ∈ l, x = c := by
  induction l with
  | nil => simp
  | cons y l ih =>
    rw [List.map_cons, List.sum_cons] at h
    have h1 : 0 ≤ (l.map fun x => (x - c) ^ 2).sum := List.sum_nonneg (by simp only [List.mem_map]; rintro _ ⟨x, _, rfl⟩; positivity)
    have h2 := sq_nonneg (y - c)
    intro x hx
    rcases List.mem_cons.1 hx with rfl | hx
    · have : (x - c) ^ 2 = 0 := by linarith
      have := pow_eq_zero_iff (two_ne_zero) |>.1 this
      linarith
    · exact ih (by linarith) x hx

/-- **C158**: with a level for each point, the order of the points does not matter, and the level used is between the smallest and the largest one. -/
theorem C158_between {l l' : List ℝ} (hl : l ≠ []) (hp : l.Perm l') (a b : ℝ) (h : ∀ x ∈ l, a ≤ x ∧ x ≤ b) :
    noiseVar none (.array l') = noiseVar none (.array l) ∧ a ≤ noiseVar none (.array l) ∧ noiseVar none (.array l) ≤ b := by
  have h0 : (0 : ℝ) < l.length := by exact_mod_cast List.length_pos_iff.2 hl
  refine ⟨by simp [noiseVar, hp.sum_eq, hp.length_eq], ?_, ?_⟩
  · show a ≤ l.sum / l.length
    rw [le_div_iff₀ h0]
    have := List.card_nsmul_le_sum l a fun x hx => (h x hx).1
    rw [nsmul_eq_mul] at this
    linarith
  · show l.sum / l.length ≤ b
    rw [div_le_iff₀ h0]
    have := List.sum_le_card_nsmul l b fun x hx => (h x hx).2
    rw [nsmul_eq_mul] at this
    linarith

example : noiseVar none (.array [3, 1, 2]) = noiseVar none (.array [1, 2, 3]) ∧ 1 ≤ noiseVar none (.array [1, 2, 3]) ∧ noiseVar none (.array [1, 2, 3]) ≤ 3 :=
  C158_between (by simp) ((List.perm_append_comm : ([1, 2] ++ [3] : List ℝ).Perm ([3] ++ [1, 2]))) 1 3 (by simp; norm_num)

/-- **C158** (documented value, partial: missing because false, see the counterexample, if two levels differ): the level used is at most the documented one, the
square root of the mean of `alpha`, and it is that one if and only if all levels are equal. -/
theorem C158_documented_partial (l : List ℝ) (hl : l ≠ []) (h0 : ∀ x ∈ l, 0 ≤ x) :
    noiseVar none (.array l) ≤ Real.sqrt ((l.map fun x => x ^ 2).sum / l.length) ∧
    (noiseVar none (.array l) = Real.sqrt ((l.map fun x => x ^ 2).sum / l.length) ↔ ∀ x ∈ l, ∀ y ∈ l, x = y) := by
  have hn : (0 : ℝ) < l.length := by exact_mod_cast List.length_pos_iff.2 hl
  have hs : 0 ≤ l.sum := List.sum_nonneg h0
  obtain ⟨m, hm⟩ : ∃ m, m = l.sum / l.length := ⟨_, rfl⟩
  have hm0 : 0 ≤ m := by rw [hm]; positivity
  have hsum : l.sum = l.length * m := by rw [hm]; field_simp
  have hdev := sum_sq_dev l m
  rw [hsum] at hdev
  have hnn : 0 ≤ (l.map fun x => (x - m) ^ 2).sum := List.sum_nonneg (by simp only [List.mem_map]; rintro _ ⟨x, _, rfl⟩; positivity)
  obtain ⟨q, hq⟩ : ∃ q : ℝ, q = (l.map fun x => x ^ 2).sum / l.length := ⟨_, rfl⟩
  have hqs : (l.map fun x => x ^ 2).sum = l.length * q := by rw [hq]; field_simp
  rw [hqs] at hdev
  have hkey : (l.map fun x => (x - m) ^ 2).sum = l.length * (q - m ^ 2) := by rw [hdev]; ring
  show l.sum / l.length ≤ Real.sqrt _ ∧ (l.sum / l.length = Real.sqrt _ ↔ _)
  rw [← hm, ← hq]
  have hmq : m ^ 2 ≤ q := by
    by_contra hc
    have : (l.length : ℝ) * (q - m ^ 2) < 0 := mul_neg_of_pos_of_neg hn (by linarith)
    linarith
  refine ⟨Real.le_sqrt_of_sq_le hmq, fun he => ?_, fun he => ?_⟩
  · have hz : q = m ^ 2 := by rw [he, Real.sq_sqrt (le_trans (sq_nonneg m) hmq)]
    have := sum_sq_zero (l := l) (c := m) (by rw [hkey, hz]; ring)
    intro x hx y hy
    rw [this x hx, this y hy]
  · obtain ⟨x, hx⟩ := List.exists_mem_of_ne_nil l hl
    have hall : l = List.replicate l.length x := List.eq_replicate_iff.2 ⟨rfl, fun y hy => he y hy x hx⟩
    have hx0 := h0 x hx
    have h1 : m = x := by rw [hm, hall]; simp; field_simp
    have h2 : q = x ^ 2 := by
      rw [hq, hall]; simp; field_simp
    rw [h1, h2, Real.sqrt_sq hx0]

example : noiseVar none (.array [1, 1, 1]) = Real.sqrt (([1, 1, 1].map fun x : ℝ => x ^ 2).sum / ([1, 1, 1] : List ℝ).length) :=
  (C158_documented_partial [1, 1, 1] (by simp) (by simp)).2.2 (by simp)

/-- **C158** is false of the documented value: whenever two levels differ, there is a standard deviation not above the documented noise at which `LogExp` is a number
instead of minus infinity. -/
theorem C158_documented_counterexample (l : List ℝ) (h0 : ∀ x ∈ l, 0 ≤ x) (x y : ℝ) (hx : x ∈ l) (hy : y ∈ l) (hxy : x ≠ y) :
    ∃ s, 0 ≤ s ∧ s ≤ Real.sqrt ((l.map fun x => x ^ 2).sum / l.length) ∧
      ∀ zeta baseline m, ∃ v, logExpValues zeta (noiseVar none (.array l)) baseline [.fin m] [s] = [.fin v] := by
  have hl : l ≠ [] := List.ne_nil_of_mem hx
  obtain ⟨h1, h2⟩ := C158_documented_partial l hl h0
  have hlt := lt_of_le_of_ne h1 fun he => hxy (h2.1 he x hx y hy)
  have hn : 0 ≤ noiseVar none (.array l) := div_nonneg (List.sum_nonneg h0) (Nat.cast_nonneg _)
  refine ⟨_, Real.sqrt_nonneg _, le_rfl, fun zeta baseline m => ?_⟩
  rw [logExpValues_eq _ _ _ _ _ rfl]
  simp only [List.zipWith_cons_cons, List.zipWith_nil_right, logExp1]
  rw [if_pos ((sq_lt_sq₀ hn (Real.sqrt_nonneg _)).2 hlt)]
  exact ⟨_, rfl⟩

example : ∃ s, 0 ≤ s ∧ s ≤ Real.sqrt (([0, 2].map fun x : ℝ => x ^ 2).sum / ([0, 2] : List ℝ).length) ∧
    ∀ zeta baseline m, ∃ v, logExpValues zeta (noiseVar none (.array [0, 2])) baseline [.fin m] [s] = [.fin v] :=
  C158_documented_counterexample [0, 2] (by simp) 0 2 (by simp) (by simp) (by norm_num)

/-- **C158** is false of points that are not in the training set: one more point with a large enough level makes `LogExp` (and `NonlinearLogExp`) minus infinity wherever the standard
deviation is at most `S`, whatever the levels of the other points. -/
theorem C158_blocked_counterexample (ns : List ℝ) (S v : ℝ) (hS : 0 ≤ S) (hv : S * (ns.length + 1) ≤ ns.sum + v) (zeta baseline : ℝ) (mus : List (Ext ℝ)) (stds : List ℝ)
    (hl : mus.length = stds.length) (hs : ∀ s ∈ stds, 0 ≤ s ∧ s ≤ S) :
    logExpValues zeta (noiseVar none (.array (ns ++ [v]))) baseline mus stds = mus.map (fun _ => .negInf) ∧
    nonlinearValues zeta (noiseVar none (.array (ns ++ [v]))) baseline mus stds = mus.map (fun _ => .negInf) := by
  have hn : S ≤ noiseVar none (.array (ns ++ [v])) := by
    show S ≤ (ns ++ [v]).sum / ((ns ++ [v]).length : ℕ)
    have h1 : ((ns ++ [v]).length : ℝ) = ns.length + 1 := by simp
    rw [h1, le_div_iff₀ (by positivity)]
    simpa using hv
  obtain ⟨w, hw⟩ : ∃ w, w = noiseVar none (.array (ns ++ [v])) := ⟨_, rfl⟩
  rw [← hw] at hn ⊢
  rw [logExpValues_eq _ _ _ _ _ hl, nonlinearValues_eq _ _ _ _ _ hl]
  have key : ∀ s ∈ stds, ¬ w ^ 2 < s ^ 2 := fun s h => not_lt.2 (pow_le_pow_left₀ (hs s h).1 ((hs s h).2.trans hn) 2)
  constructor
  · refine List.ext_getElem (by simp [hl]) fun i h1 h2 => ?_
    rw [List.getElem_zipWith, List.getElem_map]
    unfold logExp1
    cases mus[i]'(by simpa using h2) with
    | fin m => exact if_neg (key _ (List.getElem_mem _))
    | _ => rfl
  · refine List.ext_getElem (by simp [hl]) fun i h1 h2 => ?_
    rw [List.getElem_zipWith, List.getElem_map]
    unfold nonlinear1
    cases mus[i]'(by simpa using h2) with
    | fin m => exact if_neg (key _ (List.getElem_mem _))
    | _ => rfl

example : logExpValues 1 (noiseVar none (.array ([1 / 100, 1 / 100] ++ [30]))) 0 [.fin 3, .fin 5] [10, 7] = [.negInf, .negInf] :=
  (C158_blocked_counterexample [1 / 100, 1 / 100] 10 30 (by norm_num) (by norm_num) 1 0 [.fin 3, .fin 5] [10, 7] rfl (by simp; norm_num)).1

end GPry.AcqPts

namespace GPry.Gpr

variable {P PX Θ K : Type} [Field K] [LinearOrder K] [IsStrictOrderedRing K]

/-- **C158**: a call none of whose points is classified as finite leaves the training set and the model alone, but its noise levels join those that `LogExp` reads. -/
theorem C158_infinite {cfg : Cfg P PX Θ K} {st st' : State P PX Θ K} {c : Call P K} {ns vs : List K} (h : append cfg st c = (st', none)) (hb : c.batch.isSome = true)
    (hns : st.noise = .array ns) (hvs : c.noise = some (.array vs)) (h0 : st'.nLastFinite = 0) :
    st'.xTrain = st.xTrain ∧ st'.yTrain = st.yTrain ∧ st'.xTrain' = st.xTrain' ∧ st'.noiseVar = st.noiseVar ∧ st'.factors = st.factors ∧ st'.theta = st.theta ∧
    st'.noise = .array (ns ++ vs) := by
  obtain ⟨_, nz, noise, T, mask, hv, hu, _, hmid⟩ := append_ok h
  obtain ⟨_, py', yAll', noise', svm, lastMask, _, _, _, _, _, hend⟩ := appendMid_ok hmid
  have hn : noise = .array (ns ++ vs) := by
    rw [hns, hvs] at hv
    unfold validateNoise at hv
    dsimp only at hv
    split_ifs at hv
    · cases hv
      rw [hns] at hu
      exact (Except.ok.inj hu).symm
  rcases hend with ⟨_, _, rfl⟩ | ⟨hne, hf⟩
  · exact ⟨rfl, rfl, rfl, rfl, rfl, rfl, hn⟩
  · exfalso
    have e := (appendFit_ok hf).2.2.2.2.2.2.2.1
    rw [h0] at e
    refine hne ⟨e.symm, ?_⟩
    rw [Option.isNone_eq_false_iff.2 hb]
    rfl

example (st : State ℕ Unit ℕ ℚ) (h : run (exCfg true) (State.init () (.aff 0 1) (.array [])) [{ callA with noise := some (.array [1, 2, 3]) }] = some st) :
    st.xTrain = [1, 3] ∧ (append (exCfg true) st { callLow with noise := some (.array [1000]) }).1.xTrain = [1, 3] ∧
    (append (exCfg true) st { callLow with noise := some (.array [1000]) }).1.noise = .array [1, 2, 3, 1000] := by
  have hx : (run (exCfg true) (State.init () (.aff 0 1) (.array [])) [{ callA with noise := some (.array [1, 2, 3]) }]).map (fun s => (s.xTrain, s.noise,
    (append (exCfg true) s { callLow with noise := some (.array [1000]) }).2, (append (exCfg true) s { callLow with noise := some (.array [1000]) }).1.nLastFinite)) =
      some ([1, 3], .array [1, 2, 3], none, 0) := by decide +kernel
  rw [h] at hx
  simp only [Option.map_some, Option.some.injEq, Prod.mk.injEq] at hx
  obtain ⟨h1, h2, h3, h4⟩ := hx
  have := C158_infinite (c := { callLow with noise := some (.array [1000]) }) (ns := [1, 2, 3]) (vs := [1000]) (Prod.ext rfl h3) rfl h2 rfl h4
  exact ⟨h1, this.1.trans h1, this.2.2.2.2.2.2⟩

end GPry.Gpr
