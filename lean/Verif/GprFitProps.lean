import Verif.GprFit
import Verif.GprProps2
import Verif.GprEx
import Verif.BatchProps
import Verif.Kernels
import Mathlib.Tactic.Linarith
import Mathlib.Tactic.Ring
import Mathlib.Tactic.FieldSimp

set_option linter.all false

/-!
# Properties C100-C103: fit of the hyperparameters, constructor, classification and scales of the regressor
-/

namespace GPry.GprFit

open GPry.Gpr (Err PreY Svm isFiniteRaw mapE)

/-! ## C100 -/

section Fit
variable {K : Type} [Field K] [LinearOrder K] [IsStrictOrderedRing K]

/-- Finite bounds `b` (as numbers). -/
def box (b : List (K × K)) : Bounds K := b.map fun q => (.fin q.1, .fin q.2)

/-- The point `t` is within bounds. -/
def Inside (b : List (K × K)) (t : List K) : Prop :=
  t.length = b.length ∧ ∀ (i : ℕ) (q : K × K) (v : K), b[i]? = some q → t[i]? = some v → q.1 ≤ v ∧ v ≤ q.2

theorem box_finite (b : List (K × K)) : (List.all (box b) fun q : Ext K × Ext K => q.1.isFinite && q.2.isFinite) = true := by
  simp [box, Ext.isFinite]

theorem draw_inside (unif : ℕ → ℕ → K) (hu : ∀ i j, 0 ≤ unif i j ∧ unif i j < 1) (i : ℕ) (b : List (K × K))
    (hb : ∀ q ∈ b, q.1 ≤ q.2) : Inside b (draw unif i (box b)) := by
  refine ⟨by simp [draw, box], ?_⟩
  intro j q v hq hv
  have hle := hb q (List.mem_of_getElem? hq)
  simp only [draw, box, List.getElem?_map, List.getElem?_zipIdx, hq, Option.map_some, Option.some.injEq, val, Nat.zero_add] at hv
  obtain ⟨h0, h1⟩ := hu i j
  subst hv
  have hd : 0 ≤ q.2 - q.1 := by linarith
  constructor
  · have := mul_nonneg hd h0
    linarith
  · have := mul_le_mul_of_nonneg_left h1.le hd
    linarith

/-- The bounds of a fit, given or those of the kernel, are the numbers `b`. -/
def UsesBounds (c : Cfg K) (bArg : Option (Bounds K)) (b : List (K × K)) : Prop := bArg.getD c.bounds = box b

/-- **C100**: with an optimiser, hyperparameters and a positive number of runs, exactly that number of runs is done. The first one starts
from the current hyperparameters if they have been fitted before (and this was asked for), the others from points within the bounds. The
best optimum is kept. (Partial: no run returns NaN.) -/
theorem C100_fit_partial (c : Cfg K) (simple startArg : Bool) (nArg : Option ℕ) (bArg : Option (Bounds K)) (s : St K) (n : ℕ)
    (hopt : c.optimizer = true) (hdim : c.theta0 ≠ []) (hn : n = if simple then 1 else nArg.getD c.nRestarts) (hpos : 0 < n)
    (b : List (K × K)) (hb : UsesBounds c bArg b) (hle : ∀ q ∈ b, q.1 ≤ q.2) (hu : ∀ i j, 0 ≤ c.unif i j ∧ c.unif i j < 1)
    (hnan : ∀ t, (c.opt t (box b)).2.isNan = false) :
    ∃ s' starts, fit c simple startArg nArg bArg s = .ok (s', starts) ∧ starts.length = n ∧
      (∀ i t, starts[i]? = some t →
        (i = 0 ∧ s.fitted = true ∧ (simple = true ∨ startArg = true) → t = s.theta.getD c.theta0) ∧
        (¬ (i = 0 ∧ s.fitted = true ∧ (simple = true ∨ startArg = true)) → Inside b t)) ∧
      s'.fitted = true ∧
      ∃ t ∈ starts, s'.theta = some (c.opt t (box b)).1 ∧ s'.lmlValue = some (c.opt t (box b)).2.neg ∧
        ∀ u ∈ starts, Ext.lt (c.opt u (box b)).2 (c.opt t (box b)).2 = false := by
  unfold UsesBounds at hb
  have hlen : c.theta0.length ≠ 0 := by simpa using hdim
  set start := (simple || startArg) && s.fitted with hstart
  set cur := s.theta.getD c.theta0 with hcur
  set starts := (List.range n).map (startOf c cur start (box b)) with hstarts
  have hne : (starts.map fun t => c.opt t (box b)).map Prod.snd ≠ [] := by simp [hstarts]; omega
  obtain ⟨k, v, hk, hv, hmin⟩ := Batch.argmin_spec ((starts.map fun t => c.opt t (box b)).map Prod.snd) hne
    (by
      intro v hv
      simp only [List.map_map, List.mem_map, Function.comp] at hv
      obtain ⟨t, _, rfl⟩ := hv
      exact hnan t)
  have hkt : ∃ t, starts[k]? = some t ∧ (c.opt t (box b)).2 = v := by
    simp only [List.map_map, List.getElem?_map, Option.map_eq_some_iff, Function.comp] at hv
    exact hv
  obtain ⟨t, ht, htv⟩ := hkt
  refine ⟨⟨some (c.opt t (box b)).1, true, some (c.opt t (box b)).2.neg⟩, starts, ?_, by simp [hstarts], ?_, rfl, t,
    List.mem_of_getElem? ht, rfl, rfl, ?_⟩
  · unfold fit
    simp only [hopt, hb, ← hn, ← hstart, ← hcur, ← hstarts]
    rw [if_neg (by simp; exact ⟨hdim, by omega⟩), if_neg (by rw [box_finite]; simp), hk]
    simp only [List.getElem?_map, ht, Option.map_some]
  · intro i u hi
    simp only [hstarts, List.getElem?_map, Option.map_eq_some_iff] at hi
    obtain ⟨j, hj, rfl⟩ := hi
    have hij : j = i := by
      rw [List.getElem?_eq_some_iff] at hj
      obtain ⟨h1, h2⟩ := hj
      rw [List.getElem_range] at h2
      exact h2.symm
    subst hij
    constructor
    · rintro ⟨h0, h1, h2⟩
      have hs : start = true := by rw [hstart, h1]; rcases h2 with h | h <;> simp [h]
      simp [startOf, h0, hs]
    · intro hno
      have hs : ¬ (j = 0 ∧ start = true) := by
        rintro ⟨h0, h1⟩
        apply hno
        rw [hstart, Bool.and_eq_true, Bool.or_eq_true] at h1
        exact ⟨h0, h1.2, h1.1⟩
      rw [startOf, if_neg hs]
      exact draw_inside c.unif hu j b hle
  · intro u hu'
    rw [htv]
    exact hmin _ (by simp only [List.map_map, List.mem_map, Function.comp]; exact ⟨u, hu', rfl⟩)

/-- A sound optimiser: returns the value of the objective at its result, which is not worse than where it started. -/
def Sound (c : Cfg K) (b : Bounds K) : Prop :=
  ∀ t, (c.opt t b).2 = (c.lml (c.opt t b).1).neg ∧ Ext.lt (c.lml (c.opt t b).1) (c.lml t) = false

theorem neg_lt (a b : Ext K) : Ext.lt a.neg b.neg = Ext.lt b a := by
  cases a <;> cases b <;> simp [Ext.neg, Ext.lt]

theorem lt_trans_false (a b c : Ext K) (hb : b.isNan = false) (h : Ext.lt a b = false) (h' : Ext.lt b c = false) : Ext.lt a c = false := by
  cases a <;> cases b <;> cases c <;> simp_all [Ext.lt, Ext.isNan]
  exact h'.trans h

/-- **C100**: a fit that starts from the current hyperparameters does not decrease the log-marginal likelihood, and the value stored is the
one of the hyperparameters stored. -/
theorem C100_not_worse (c : Cfg K) (simple startArg : Bool) (nArg : Option ℕ) (bArg : Option (Bounds K)) (s : St K) (n : ℕ)
    (hopt : c.optimizer = true) (hdim : c.theta0 ≠ []) (hn : n = if simple then 1 else nArg.getD c.nRestarts) (hpos : 0 < n)
    (b : List (K × K)) (hb : UsesBounds c bArg b) (hle : ∀ q ∈ b, q.1 ≤ q.2) (hu : ∀ i j, 0 ≤ c.unif i j ∧ c.unif i j < 1)
    (hnan : ∀ t, (c.opt t (box b)).2.isNan = false) (hsound : Sound c (box b))
    (hfit : s.fitted = true) (hst : simple = true ∨ startArg = true) (cur : List K) (hcur : s.theta = some cur) :
    ∃ s' starts th, fit c simple startArg nArg bArg s = .ok (s', starts) ∧ s'.theta = some th ∧ s'.lmlValue = some (c.lml th) ∧
      Ext.lt (c.lml th) (c.lml cur) = false := by
  obtain ⟨s', starts, h, hl, hsts, _, t, ht, hth, hlml, hbest⟩ :=
    C100_fit_partial c simple startArg nArg bArg s n hopt hdim hn hpos b hb hle hu hnan
  have hnn : ∀ e : Ext K, e.neg.neg = e := by intro e; cases e <;> simp [Ext.neg]
  refine ⟨s', starts, _, h, hth, ?_, ?_⟩
  · rw [hlml, (hsound t).1, hnn]
  · obtain ⟨u, hu0⟩ : ∃ u, starts[0]? = some u := by
      rw [← Option.isSome_iff_exists]; simp; omega
    have huc : u = cur := by
      have := (hsts 0 u hu0).1 ⟨rfl, hfit, hst⟩
      rw [this, hcur]; rfl
    subst huc
    have h1 := hbest u (List.mem_of_getElem? hu0)
    rw [(hsound u).1, (hsound t).1, neg_lt] at h1
    refine lt_trans_false _ (c.lml (c.opt u (box b)).1) _ ?_ h1 (hsound u).2
    have := hnan u
    rw [(hsound u).1] at this
    revert this
    cases c.lml (c.opt u (box b)).1 <;> simp [Ext.neg, Ext.isNan]

/-- **C100**: infinite bounds are refused exactly when some run needs a random initial point. -/
theorem C100_infinite_bounds (c : Cfg K) (simple startArg : Bool) (nArg : Option ℕ) (bArg : Option (Bounds K)) (s : St K) (n : ℕ)
    (hopt : c.optimizer = true) (hdim : c.theta0 ≠ []) (hn : n = if simple then 1 else nArg.getD c.nRestarts) (hpos : 0 < n)
    (hb : ∃ q ∈ bArg.getD c.bounds, q.1.isFinite = false ∨ q.2.isFinite = false) :
    fit c simple startArg nArg bArg s = .error .valueError ↔
      ¬ (n = 1 ∧ s.fitted = true ∧ (simple = true ∨ startArg = true)) := by
  have hall : ¬ ((bArg.getD c.bounds).all fun q => q.1.isFinite && q.2.isFinite) = true := by
    rw [List.all_eq_true]
    intro h
    obtain ⟨q, hq, hf⟩ := hb
    have := h q hq
    rcases hf with hf | hf <;> simp [hf] at this
  unfold fit
  simp only [hopt, ← hn]
  rw [if_neg (by simp; exact ⟨hdim, by omega⟩)]
  by_cases hs : ((simple || startArg) && s.fitted) = true
  · have hs' := hs
    rw [Bool.and_eq_true, Bool.or_eq_true] at hs'
    by_cases h1 : n = 1
    · have hno : ¬ (n - (if ((simple || startArg) && s.fitted) = true then 1 else 0) ≠ 0 ∧
          ¬ ((bArg.getD c.bounds).all fun q => q.1.isFinite && q.2.isFinite) = true) := by rw [if_pos hs]; omega
      rw [if_neg hno]
      constructor
      · intro h
        exfalso
        rw [h1] at h
        cases hk : Batch.argmin (((List.range 1).map (startOf c (s.theta.getD c.theta0) ((simple || startArg) && s.fitted)
            (bArg.getD c.bounds))).map (fun t => c.opt t (bArg.getD c.bounds)) |>.map Prod.snd) with
        | none => simp [Batch.argmin] at hk
        | some k =>
          have hlt := Batch.argmin_lt _ _ hk
          simp only [List.length_map, List.length_range] at hlt
          have hk0 : k = 0 := by omega
          subst hk0
          rw [hk] at h
          simp at h
      · intro h; exact absurd ⟨h1, hs'.2, hs'.1⟩ h
    · rw [if_pos (by rw [if_pos hs]; exact ⟨by omega, hall⟩)]
      simp [h1]
  · rw [if_pos (by rw [if_neg hs]; exact ⟨by omega, hall⟩)]
    refine ⟨fun _ h => hs ?_, fun _ => rfl⟩
    rw [h.2.1, Bool.and_true, Bool.or_eq_true]
    exact h.2.2

/-- **C100**, against the documentation of `n_restarts_optimizer` (gpr.py:103-110): with the default value 0, which should mean one run, no
run is done at all; and the first fit of a regressor raises. -/
theorem C100_no_restarts_counterexample (c : Cfg K) (startArg : Bool) (bArg : Option (Bounds K)) (s : St K) (h0 : c.nRestarts = 0) :
    (s.theta = none → fit c false startArg none bArg s = .error .attributeError) ∧
    (∀ th, s.theta = some th → ∃ s', fit c false startArg none bArg s = .ok (s', []) ∧ s'.theta = some th) := by
  unfold fit
  constructor
  · intro h
    simp [h0, h]
  · intro th h
    simp only [h0, h, Option.getD_none, Bool.false_eq_true, if_false, or_true, if_true]
    exact ⟨_, rfl, rfl⟩

/-- **C100**, against the documentation of `n_restarts_optimizer`: the first fit does not depend on the initial parameters of the kernel. -/
theorem C100_initial_counterexample (c : Cfg K) (simple startArg : Bool) (nArg : Option ℕ) (bArg : Option (Bounds K)) (s : St K)
    (hs : s.fitted = false) (th : List K) (hl : th.length = c.theta0.length) :
    fit { c with theta0 := th } simple startArg nArg bArg s = fit c simple startArg nArg bArg s := by
  have hso : startOf { c with theta0 := th } (s.theta.getD th) false (bArg.getD c.bounds) =
      startOf c (s.theta.getD c.theta0) false (bArg.getD c.bounds) := by
    funext i
    simp [startOf]
  unfold fit
  simp only [hs, hl, Bool.and_false]
  rw [hso]

end Fit

section Examples

/-- Objective `|t - 1|`; the optimiser halves the distance to 1. -/
def exC : Cfg ℚ := ⟨true, 2, [5], [(.fin (-3), .fin 3)], fun i _ => i / 4,
  fun t _ => (t.map fun v => (v + 1) / 2, .fin |((t.headD 1) - 1) / 2|), fun t => .fin (-|t.headD 1 - 1|)⟩

example : fit exC false true none none ⟨some [2], true, none⟩ =
    .ok (⟨some [3 / 2], true, some (.fin (-1 / 2))⟩, [[2], [-3 / 2]]) := by decide +kernel

example : fit exC false true none none ⟨none, false, none⟩ =
    .ok (⟨some [-1 / 4], true, some (.fin (-5 / 4))⟩, [[-3], [-3 / 2]]) := by decide +kernel

theorem exC_sound : Sound exC (box [(-3, 3)]) ∧ UsesBounds exC none [(-3, 3)] ∧ (∀ t, (exC.opt t (box [(-3, 3)])).2.isNan = false) := by
  refine ⟨?_, rfl, fun t => rfl⟩
  intro t
  rcases t with _ | ⟨v, t⟩
  · constructor
    · simp [exC, Ext.neg]
    · simp [exC, Ext.lt]
  · constructor
    · simp only [exC, Ext.neg, List.map_cons, List.headD_cons, neg_neg]
      congr 2; ring
    · simp only [exC, Ext.lt, List.map_cons, List.headD_cons, decide_eq_false_iff_not, not_lt, neg_le_neg_iff]
      have : (v + 1) / 2 - 1 = (v - 1) / 2 := by ring
      rw [this, abs_div]
      have := abs_nonneg (v - 1)
      rw [abs_of_pos (by norm_num : (0 : ℚ) < 2)]
      linarith

/-- `exC` with numbers in [0, 1) for all the runs. -/
def exC' : Cfg ℚ := { exC with unif := fun i _ => if i = 0 then 0 else 1 / 4 }

example : ∃ s' starts, fit exC' false true (some 3) none ⟨some [2], true, none⟩ = .ok (s', starts) ∧ starts.length = 3 ∧ s'.fitted = true := by
  obtain ⟨s', starts, h1, h2, -, h4, -⟩ := C100_fit_partial exC' false true (some 3) none ⟨some [2], true, none⟩ 3 rfl (by simp [exC', exC]) rfl (by decide)
    [(-3, 3)] exC_sound.2.1 (by norm_num) (by intro i j; simp only [exC']; split_ifs <;> norm_num) exC_sound.2.2
  exact ⟨s', starts, h1, h2, h4⟩

example : ∃ s' starts th, fit exC' false true (some 3) none ⟨some [2], true, none⟩ = .ok (s', starts) ∧ s'.theta = some th ∧
    s'.lmlValue = some (exC'.lml th) ∧ Ext.lt (exC'.lml th) (exC'.lml [2]) = false :=
  C100_not_worse exC' false true (some 3) none ⟨some [2], true, none⟩ 3 rfl (by simp [exC', exC]) rfl (by decide)
    [(-3, 3)] exC_sound.2.1 (by norm_num) (by intro i j; simp only [exC']; split_ifs <;> norm_num) exC_sound.2.2 exC_sound.1 rfl (.inr rfl) [2] rfl

example : fit exC' false true none (some [(.fin 0, .posInf)]) ⟨some [2], true, none⟩ = .error .valueError :=
  (C100_infinite_bounds exC' false true none (some [(.fin 0, .posInf)]) ⟨some [2], true, none⟩ 2 rfl (by simp [exC', exC]) rfl (by decide)
    ⟨(.fin 0, .posInf), by simp, .inr rfl⟩).2 (by decide)

/-- **C100**: a run whose objective is NaN is preferred over all the others. -/
theorem C100_nan_counterexample :
    ∃ (c : Cfg ℚ) (s s' : St ℚ), fit c false true none none s = .ok (s', [[1], [2]]) ∧
      (c.opt [1] c.bounds).2 = .fin (-7) ∧ s'.theta = some (c.opt [2] c.bounds).1 ∧ s'.lmlValue = some .nan :=
  ⟨⟨true, 2, [0], [(.fin 0, .fin 4)], fun _ _ => 1 / 2, fun t _ => (t, if t = [1] then .fin (-7) else .nan), fun _ => .fin 0⟩,
    ⟨some [1], true, none⟩, ⟨some [2], true, some .nan⟩, by decide +kernel, by decide +kernel, by decide +kernel, by decide +kernel⟩

end Examples

/-! ## C101 -/

section Init
variable {K : Type} [Field K] [LinearOrder K]

/-- The kernel is an object or names a standard one. -/
def KernOk (lower : String → String) : KernArg → Prop
  | .object => True
  | .name s => lower s = "rbf" ∨ lower s = "matern"
  | .dict keys => ∃ s, keys = [s] ∧ (lower s = "rbf" ∨ lower s = "matern")

/-- **C101**: exactly which arguments the constructor accepts, and what it sets. -/
theorem C101_init_iff (deltaLogp : K → ℕ → K) (lower : String → String) (a : Args K) :
    (∃ m, init deltaLogp lower a = .ok m) ↔
      (∃ n, a.dim = some n) ∧ (∃ f, a.clip = some f ∧ 1 ≤ f) ∧
      (a.inf ≠ .no → ∃ v sigma, a.thr = some (.ok (v, sigma, none))) ∧ KernOk lower a.kernel := by
  constructor
  · rintro ⟨m, h⟩
    unfold init at h
    split at h
    · cases h
    rename_i f hf
    split at h
    · cases h
    rename_i hf1
    split at h
    · cases h
    split at h
    · cases h
    rename_i t ht
    split at h
    · cases h
    rename_i k hk
    split at h
    · cases h
    rename_i n hn
    have hdim : a.dim = some n := by
      unfold Args.d at hn
      split at hn
      · cases hn
      · cases hn; assumption
    refine ⟨⟨n, hdim⟩, ⟨f, hf, not_lt.1 hf1⟩, ?_, ?_⟩
    · intro hno
      unfold Args.threshold at ht
      split at ht
      · rename_i h0; exact absurd h0 hno
      · split at ht
        · cases ht
        · cases ht
        · rename_i v sg p hthr
          split at ht
          · cases ht
          · exact ⟨v, sg, hthr⟩
    · unfold Args.kern at hk
      split at hk
      · rename_i h0; rw [h0]; trivial
      · rename_i s h0
        rw [hdim] at hk
        simp only at hk
        split at hk
        · rename_i h1; rw [h0]; exact h1
        · cases hk
      · rename_i keys h0
        split at hk
        · rename_i s
          rw [hdim] at hk
          simp only at hk
          split at hk
          · rename_i h1; rw [h0]; exact ⟨s, rfl, h1⟩
          · cases hk
        · cases hk
  · rintro ⟨⟨n, hdim⟩, ⟨f, hf, hf1⟩, hthr, hk⟩
    have hd : a.d = .ok n := by simp [Args.d, hdim]
    have hkeep : ∃ m, a.keep = .ok m := by
      unfold Args.keep
      cases a.keepMin with
      | none => simp [hd]
      | some m => exact ⟨m, rfl⟩
    have ht : ∃ t, a.threshold deltaLogp = .ok t := by
      unfold Args.threshold
      cases hi : a.inf with
      | no => exact ⟨none, rfl⟩
      | svm =>
        obtain ⟨v, sg, hv⟩ := hthr (by rw [hi]; decide)
        cases sg <;> simp [hv, hd]
      | object =>
        obtain ⟨v, sg, hv⟩ := hthr (by rw [hi]; decide)
        cases sg <;> simp [hv, hd]
    have hk' : ∃ k, a.kern lower = .ok k := by
      unfold Args.kern
      cases hkk : a.kernel with
      | object => exact ⟨none, rfl⟩
      | name s =>
        rw [hkk] at hk
        simp only [hdim]
        rw [if_pos (show lower s = "rbf" ∨ lower s = "matern" from hk)]
        exact ⟨_, rfl⟩
      | dict keys =>
        rw [hkk] at hk
        obtain ⟨s, rfl, h1⟩ := hk
        simp only [hdim]
        rw [if_pos h1]
        exact ⟨_, rfl⟩
    obtain ⟨m, hm⟩ := hkeep
    obtain ⟨t, ht⟩ := ht
    obtain ⟨k, hk'⟩ := hk'
    refine ⟨⟨n, m, t, k⟩, ?_⟩
    unfold init
    rw [hf]
    simp only [not_lt.2 hf1, if_false, hm, ht, hk', hd]

/-- **C101**: values set by the constructor: dimension, minimum number of points to keep (default: the dimension, but at least 2), threshold
(absolute, or computed from a number of sigmas in that dimension; none without classifier). -/
theorem C101_init_values (deltaLogp : K → ℕ → K) (lower : String → String) (a : Args K) (m : Made K) (h : init deltaLogp lower a = .ok m) :
    a.dim = some m.dim ∧ (∀ k, a.keepMin = some k → m.keepMin = k) ∧
      (a.keepMin = none → 2 ≤ m.keepMin ∧ m.dim ≤ m.keepMin ∧ (m.keepMin = 2 ∨ m.keepMin = m.dim)) ∧
      (a.inf = .no → m.diffThr = none) ∧
      (∀ v p, a.inf ≠ .no → a.thr = some (.ok (v, false, p)) → m.diffThr = some v) ∧
      (∀ v p, a.inf ≠ .no → a.thr = some (.ok (v, true, p)) → m.diffThr = some (deltaLogp v m.dim)) := by
  unfold init at h
  split at h
  · cases h
  split at h
  · cases h
  split at h
  · cases h
  rename_i k hk
  split at h
  · cases h
  rename_i t ht
  split at h
  · cases h
  split at h
  · cases h
  rename_i n hn
  cases h
  have hdim : a.dim = some n := by
    unfold Args.d at hn
    split at hn
    · cases hn
    · cases hn; assumption
  refine ⟨hdim, ?_, ?_, ?_, ?_, ?_⟩
  · intro k' hk'
    simp only [Args.keep, hk', Except.ok.injEq] at hk
    exact hk.symm
  · intro hnone
    simp only [Args.keep, hnone, hn, Except.ok.injEq] at hk
    subst hk
    exact ⟨le_max_left _ _, le_max_right _ _, by rcases max_choice 2 n with h | h <;> simp [h]⟩
  · intro hi
    simp only [Args.threshold, hi, Except.ok.injEq] at ht
    exact ht.symm
  · intro v p hi hv
    unfold Args.threshold at ht
    split at ht
    · contradiction
    · rw [hv] at ht
      cases p with
      | some p => cases ht
      | none => simpa using ht.symm
  · intro v p hi hv
    unfold Args.threshold at ht
    split at ht
    · contradiction
    · rw [hv] at ht
      cases p with
      | some p => cases ht
      | none => simpa [hn] using ht.symm

/-- **C101**, against the signature and documentation (`bounds=None` is the default): a regressor cannot be built without bounds. With a
kernel given as an object and the number of points to keep given, the exception is an `AttributeError`. -/
theorem C101_bounds_counterexample (deltaLogp : K → ℕ → K) (lower : String → String) (a : Args K) (h : a.dim = none) :
    (∀ m, init deltaLogp lower a ≠ .ok m) ∧
    (∀ f, a.clip = some f → 1 ≤ f → a.keepMin = none → init deltaLogp lower a = .error .attributeError) := by
  constructor
  · intro m hm
    obtain ⟨⟨n, hn⟩, -⟩ := (C101_init_iff deltaLogp lower a).1 ⟨m, hm⟩
    rw [h] at hn; cases hn
  · intro f hf h1 hk
    simp [init, hf, not_lt.2 h1, Args.keep, hk, Args.d, h]

/-- **C101**, against its own message ("must be >= 1, or None"): `clip_factor=None` raises. -/
theorem C101_clip_counterexample (deltaLogp : K → ℕ → K) (lower : String → String) (a : Args K) (h : a.clip = none) :
    init deltaLogp lower a = .error .typeError := by
  simp [init, h]

/-- Default arguments in 3 dimensions, and variants. -/
def exA : Args ℚ := ⟨some 3, some (11 / 10), .svm, some (.ok (20, true, none)), none, .name "RBF"⟩

/-- lower case of the names used here -/
def exLower (s : String) : String := if s = "RBF" then "rbf" else s

example : ∃ m, init (fun (v : ℚ) (n : ℕ) => v * n) exLower exA = .ok m :=
  (C101_init_iff _ exLower exA).2 ⟨⟨3, rfl⟩, ⟨11 / 10, rfl, by norm_num⟩, fun _ => ⟨20, true, rfl⟩, .inl rfl⟩

example (m : Made ℚ) (h : init (fun (v : ℚ) (n : ℕ) => v * n) exLower exA = .ok m) : m.diffThr = some (20 * (m.dim : ℚ)) ∧ 2 ≤ m.keepMin :=
  ⟨(C101_init_values _ exLower exA m h).2.2.2.2.2 20 none (by decide) rfl, ((C101_init_values _ exLower exA m h).2.2.1 rfl).1⟩

example : init (fun (v : ℚ) (n : ℕ) => v * n) exLower exA = .ok ⟨3, 3, some 60, some "rbf"⟩ := by decide +kernel
example : init (fun (v : ℚ) (n : ℕ) => v * n) exLower { exA with dim := some 1, inf := .no, kernel := .object } = .ok ⟨1, 2, none, none⟩ := by decide +kernel
example : init (fun (v : ℚ) (n : ℕ) => v * n) exLower { exA with kernel := .dict ["RBF", "matern"] } = .error .valueError := by decide +kernel
example : init (fun (v : ℚ) (n : ℕ) => v * n) exLower { exA with dim := none, keepMin := some 4, inf := .no } = .error .valueError := by decide +kernel
example : init (fun (v : ℚ) (n : ℕ) => v * n) exLower { exA with dim := none, keepMin := some 4, inf := .no, kernel := .object } = .error .attributeError := by decide +kernel
example : init (fun (v : ℚ) (n : ℕ) => v * n) exLower { exA with clip := some (9 / 10) } = .error .valueError := by decide +kernel

end Init

/-! ## C102 -/

section Classify
variable {K : Type} [Field K] [LinearOrder K] [IsStrictOrderedRing K] {P PX Θ : Type}

open GPry.Gpr (State Call append KeptBy CfgOk Good)

theorem svm_fit_state {s s' : Svm K} {y : List (Ext K)} {t : Ext K} {f : List Bool} (h : s.fit y t = (s', .ok f))
    (hne : y.all (fun v => v.eqv .negInf) = false) : ∃ M, s'.diffThreshold = some t ∧ s'.maxY = some M ∧ f = y.map (isFiniteRaw t M) := by
  unfold Svm.fit at h
  rw [hne] at h
  simp only [Bool.false_eq_true, if_false] at h
  split at h
  · simp at h
  · rename_i M hM
    split_ifs at h
    · obtain ⟨rfl, hf⟩ := Prod.mk.inj h
      cases hf
      exact ⟨M, rfl, rfl, rfl⟩
    · obtain ⟨rfl, hf⟩ := Prod.mk.inj h
      cases hf
      exact ⟨M, rfl, rfl, rfl⟩
    · simp at h

/-- **C102**: after data has been added and the classifier refitted, `is_finite` of all the targets is exactly the classification used for
the training set. (Partial: not if all targets are `-inf`; the y-preprocessor is fitted with a positive scale.) -/
theorem C102_is_finite_partial {cfg : Gpr.Cfg P PX Θ K} (hc : CfgOk cfg) {st st' : State P PX Θ K} {c : Call P K} (hu : cfg.useSvm = true)
    (hg : ∀ y ∈ st.yAll ++ c.ys, Good y) (hfin : ∃ v, Ext.fin v ∈ st.yAll ++ c.ys) (hl : st.xAll.length = st.yAll.length)
    (hrefit : (c.fitClf || c.fit != .no) = true) (h : append cfg st c = (st', none)) (m s : K) (hs : 0 < s) (hpy : st'.py = .aff m s) :
    ∃ mask, isFinite true st'.py st'.svm true st'.yAll = .ok mask ∧ mask.length = st'.yAll.length ∧
      ∀ i (h : i < st'.yAll.length) (h' : i < mask.length), mask[i] = true ↔ KeptBy cfg st'.yAll st'.yAll[i] := by
  obtain ⟨_, hyAll, _, _, mask₀, hlen, hspec, _, hsv, _⟩ := Gpr.append_data hc (fun _ => hg) hl h
  obtain ⟨_, nz, noise, thrKeep, mask, _, _, hcls, hmid⟩ := Gpr.append_ok h
  obtain ⟨_, py, yAll', noise', svm, lastMask, _, hy, _, hsvm, _, hst⟩ := Gpr.appendMid_ok hmid
  rw [if_pos ⟨hu, hrefit⟩] at hsvm
  obtain ⟨thr', hthr', hsvm⟩ := hsvm
  have hfields : st'.py = py ∧ st'.svm = svm := by
    rcases hst with ⟨_, _, hst⟩ | ⟨_, hst⟩
    · rw [hst]; exact ⟨rfl, rfl⟩
    · have := Gpr.appendFit_ok hst
      exact ⟨this.2.2.2.1, this.2.2.2.2.2.1⟩
  have hyF := (hsv hrefit hu).1
  rw [hfields.1] at hpy
  subst hpy
  have hne : yAll'.all (fun v => v.eqv .negInf) = false := by
    rcases Gpr.mapE_transform hy (by obtain ⟨v, hv⟩ := hfin; intro h0; simp only at h0; rw [h0] at hv; cases hv) with ⟨m', s', he, hy'⟩ | ⟨he, _⟩
    · cases he
      obtain ⟨v, hv⟩ := hfin
      rw [Bool.eq_false_iff]
      intro hall
      rw [List.all_eq_true] at hall
      have := hall _ (by rw [hy']; exact List.mem_map_of_mem hv)
      simp [Ext.subFin, Ext.divFin, hs.ne', Ext.eqv, Ext.le] at this
    · cases he
  obtain ⟨M, hd, hM, hmask⟩ := svm_fit_state hsvm hne
  have hfin2 : svm.yFinite = mask := by
    rcases Gpr.svm_fit_any hsvm with ⟨ha, _⟩ | _
    · rw [hne] at ha; cases ha
    · unfold Svm.fit at hsvm
      rw [hne] at hsvm
      simp only [Bool.false_eq_true, if_false] at hsvm
      split at hsvm
      · simp at hsvm
      · split_ifs at hsvm
        · obtain ⟨rfl, hf⟩ := Prod.mk.inj hsvm
          cases hf; rfl
        · obtain ⟨rfl, hf⟩ := Prod.mk.inj hsvm
          cases hf; rfl
        · simp at hsvm
  have hmm : mask₀ = mask := by rw [← hyF, hfields.2, hfin2]
  subst hmm
  refine ⟨mask₀, ?_, hlen, hspec⟩
  have hy2 : mapE (PreY.aff m s).transform st'.yAll = .ok yAll' := by rw [hyAll]; exact hy
  unfold isFinite svmIsFinite
  rw [hfields.1, hfields.2, hy2]
  simp only [Bool.not_true, Bool.false_eq_true, if_false, hd, hM]
  rw [← hmask]

example : ∃ mask, isFinite true (Gpr.exSt).py Gpr.exSt.svm true Gpr.exSt.yAll = .ok mask ∧ mask.length = 3 :=
  let ⟨mask, h, hl, _⟩ := C102_is_finite_partial (Gpr.exCfg_ok true) rfl (st := Gpr.ex0) (c := Gpr.callA)
    (fun y hy => Gpr.exA_good y (by simpa [Gpr.ex0, State.init] using hy)) ⟨1, by decide +kernel⟩ rfl rfl Gpr.exSt_ok 0 1 (by norm_num) (by decide +kernel)
  ⟨mask, h, hl.trans (by decide +kernel)⟩

/-- **C102**, against "compare with the current threshold": if all the targets so far are `-inf`, asking for a classification raises
(`training_set_as_df` too). -/
theorem C102_all_infinite_counterexample (py : PreY K) (ys q q' : List (Ext K)) (t : Ext K) (hys : ∀ y ∈ ys, y = .negInf)
    (hq : mapE py.transform q = .ok q') :
    isFinite true py (Svm.init.fit ys t).1 true q = .error .typeError := by
  have : (ys.all fun v => v.eqv .negInf) = true := by
    rw [List.all_eq_true]
    intro y hy
    rw [hys y hy]; simp [Ext.eqv, Ext.le]
  simp [isFinite, hq, svmIsFinite, Svm.fit, this, Svm.init]

/-- **C102**, against "absolute threshold for y values": for targets normalised with mean `m`, `abs_finite_threshold` is too low by `m`. -/
theorem C102_abs_threshold_counterexample (m s t M : K) (hs : 0 < s) (sv : Svm K)
    (hd : sv.diffThreshold = some ((Ext.fin t).divFin s)) (hM : sv.maxY = some (((Ext.fin M).subFin m).divFin s)) :
    absThreshold true (.aff m s) sv = .ok (.fin (M - t - m)) ∧
    (∀ y : K, isFinite true (.aff m s) sv true [.fin y] = .ok [decide (M - t ≤ y)]) := by
  have hne := hs.ne'
  constructor
  · simp only [absThreshold, hd, hM, Ext.subFin, Ext.divFin, hne, if_false, Ext.sub, invScale, Bool.not_true, Bool.false_eq_true]
    congr 2
    field_simp
    ring
  · intro y
    have key : (M - m) / s - t / s ≤ (y - m) / s ↔ M - t ≤ y := by
      rw [← sub_div, div_le_div_iff_of_pos_right hs]
      constructor <;> intro h <;> linarith
    simp [isFinite, mapE, PreY.transform, svmIsFinite, hd, hM, isFiniteRaw, Ext.subFin, Ext.divFin, hne, Ext.sub, Ext.ge, Ext.le, Ext.isFinite,
      key]

/-- **C102**: without preprocessing of the targets (or with mean 0) the absolute threshold separates finite from not finite. -/
theorem C102_abs_threshold_partial (s t M : K) (hs : 0 < s) (sv : Svm K)
    (hd : sv.diffThreshold = some ((Ext.fin t).divFin s)) (hM : sv.maxY = some (((Ext.fin M).subFin 0).divFin s)) :
    ∃ a, absThreshold true (.aff 0 s) sv = .ok (.fin a) ∧ ∀ y : K, isFinite true (.aff 0 s) sv true [.fin y] = .ok [decide (a ≤ y)] := by
  obtain ⟨h1, h2⟩ := C102_abs_threshold_counterexample 0 s t M hs sv hd hM
  refine ⟨_, h1, ?_⟩
  simpa using h2

/-- **C102**, against "prediction at some given parameters": without a classifier the answer has one entry per training point, not one per
query. -/
theorem C102_predict_counterexample (nAll : ℕ) (s : Svm K) (trained : Bool) (decision : P → Bool) (xs : List P) (hne : xs.length ≠ nAll) :
    ∃ r, predictIsFinite false nAll s trained decision xs = .ok r ∧ r.length ≠ xs.length :=
  ⟨List.replicate nAll true, by simp [predictIsFinite], by simpa using hne.symm⟩

/-- **C102**: with a trained classifier there is one answer per query, all true if all training points are finite, all false if none is,
and independent of the other queries. -/
theorem C102_predict_partial (nAll : ℕ) (s s' : Svm K) (y : List (Ext K)) (t : Ext K) (f : List Bool) (hf : s.fit y t = (s', .ok f))
    (hs : s.allFinite = false) (decision : P → Bool) (xs : List P) :
    ∃ r, predictIsFinite true nAll s' true decision xs = .ok r ∧ r.length = xs.length ∧
      (y ≠ [] → (∀ b ∈ f, b = true) → ∀ b ∈ r, b = true) ∧ ((∀ b ∈ f, b = false) → ∀ b ∈ r, b = false) ∧
      ((∃ b ∈ f, b = true) → (∃ b ∈ f, b = false) → r = xs.map decision) := by
  unfold Svm.fit at hf
  split at hf
  · rename_i hall
    obtain ⟨rfl, hf⟩ := Prod.mk.inj hf
    cases hf
    refine ⟨xs.map fun _ => false, by simp [predictIsFinite, hs], by simp, ?_, by simp, ?_⟩
    · intro hne h
      rcases y with _ | ⟨a, y⟩
      · exact absurd rfl hne
      · have := h false (by simp)
        cases this
    · rintro ⟨b, hb, rfl⟩
      simp at hb
  · split at hf
    · simp at hf
    · rename_i M hM
      dsimp only at hf
      split_ifs at hf with h1 h2
      · obtain ⟨rfl, hf⟩ := Prod.mk.inj hf
        cases hf
        refine ⟨xs.map fun _ => true, by simp [predictIsFinite], by simp, by simp, ?_, ?_⟩
        · intro h
          rcases y with _ | ⟨a, y⟩
          · simp [Ext.pyMax] at hM
          · have h3 := h _ (List.mem_map_of_mem (List.mem_cons_self (a := a) (l := y)))
            rw [List.all_eq_true] at h1
            have h4 := h1 _ (List.mem_map_of_mem (List.mem_cons_self (a := a) (l := y)))
            rw [id, h3] at h4; cases h4
        · rintro _ ⟨b, hb, rfl⟩
          rw [List.all_eq_true] at h1
          have := h1 _ hb
          cases this
      · obtain ⟨rfl, hf⟩ := Prod.mk.inj hf
        cases hf
        refine ⟨xs.map decision, by simp [predictIsFinite], by simp, ?_, ?_, fun _ _ => rfl⟩
        · intro _ h
          exact absurd (List.all_eq_true.2 fun b hb => by rw [id, h b hb]) h1
        · intro h
          rw [List.any_eq_true] at h2
          obtain ⟨b, hb, hb'⟩ := h2
          rw [id, h b hb] at hb'; cases hb'
      · simp at hf

/-- targets 10, 9 and -inf, normalised with mean 1 and scale 2; threshold 3 -/
def exS : Svm ℚ := (Svm.init.fit [.fin (9 / 2), .fin 4, .negInf] (.fin (3 / 2))).1

example : ∃ a, absThreshold true (.aff 0 2) { exS with diffThreshold := some ((Ext.fin 3).divFin 2), maxY := some (((Ext.fin 9).subFin 0).divFin 2) } = .ok (.fin a) ∧
    isFinite true (.aff 0 2) { exS with diffThreshold := some ((Ext.fin 3).divFin 2), maxY := some (((Ext.fin 9).subFin 0).divFin 2) } true [.fin 7] =
      .ok [decide (a ≤ 7)] := by
  obtain ⟨a, h1, h2⟩ := C102_abs_threshold_partial (2 : ℚ) 3 9 (by norm_num)
    { exS with diffThreshold := some ((Ext.fin 3).divFin 2), maxY := some (((Ext.fin 9).subFin 0).divFin 2) } rfl rfl
  exact ⟨a, h1, h2 7⟩

example : ∃ r, predictIsFinite true 3 exS true (fun x : ℚ => decide (x < 0)) [1, -1] = .ok r ∧ r.length = 2 := by
  obtain ⟨r, h1, h2, -⟩ := C102_predict_partial 3 Svm.init exS [.fin (9 / 2), .fin 4, .negInf] (.fin (3 / 2)) [true, true, false] (by decide +kernel) rfl
    (fun x : ℚ => decide (x < 0)) [1, -1]
  exact ⟨r, h1, h2⟩

example : isFinite true (.aff 1 2) exS true [.fin 10, .fin 9, .negInf, .fin 7, .fin (13 / 2)] = .ok [true, true, false, true, false] := by
  decide +kernel
example : absThreshold true (.aff 1 2) exS = .ok (.fin 6) := by decide +kernel
example : predictIsFinite true 3 exS true (fun x : ℚ => decide (x < 0)) [1, -1] = .ok [false, true] := by decide +kernel
example : predictIsFinite false 3 exS true (fun x : ℚ => decide (x < 0)) [1, -1] = .ok [true, true, true] := by decide +kernel

end Classify

/-! ## C103 -/

open GPry.Kernels in
/-- **C103**: the scales returned describe the covariance in the original coordinates: the kernel evaluated at points normalised with the
bounds, in units of the scale of the targets, is the kernel with these scales at the original points. (Partial: for `Normalize_bounds`, and
for no preprocessing see `C103_scales_dummy_partial`.) -/
theorem C103_scales_partial {d : ℕ} (general : ℕ → ℝ → ℝ) (w ls a : Fin d → ℝ) (hw : ∀ i, 0 < w i) (std c : ℝ) (hc : 0 ≤ c) :
    ∃ (σ : ℝ) (L : Fin d → ℝ), scales (.normalize (List.ofFn w)) std c (.vec (List.ofFn ls)) = .ok (σ, List.ofFn L) ∧
      ∀ x y : Fin d → ℝ,
        std ^ 2 * (c * (KExpr.rbf ls).eval general (fun i => (x i - a i) / w i) (fun i => (y i - a i) / w i)) =
          σ ^ 2 * (KExpr.rbf L).eval general x y ∧
        ∀ nu2, std ^ 2 * (c * (KExpr.matern nu2 ls).eval general (fun i => (x i - a i) / w i) (fun i => (y i - a i) / w i)) =
          σ ^ 2 * (KExpr.matern nu2 L).eval general x y := by
  have hz : List.zipWith (· * ·) (List.ofFn ls) (List.ofFn w) = List.ofFn fun i => ls i * w i := by
    apply List.ext_getElem
    · simp
    · intro i h1 h2; simp
  refine ⟨√c * std, fun i => ls i * w i, ?_, ?_⟩
  · simp [scales, PreX.invScale, hz]
  · intro x y
    have hd : sqDist ls (fun i => (x i - a i) / w i) (fun i => (y i - a i) / w i) = sqDist (fun i => ls i * w i) x y := by
      unfold sqDist
      apply Finset.sum_congr rfl
      intro i _
      congr 1
      rw [← sub_div, div_div, mul_comm (w i)]
      congr 1
      ring
    have hs : (√c * std) ^ 2 = std ^ 2 * c := by rw [mul_pow, Real.sq_sqrt hc]; ring
    simp only [KExpr.eval, hd, hs]
    exact ⟨by ring, fun _ => by ring⟩

example : ∃ (σ : ℝ) (L : Fin 2 → ℝ), scales (.normalize (List.ofFn ![10, 2])) 3 4 (.vec (List.ofFn ![1, 5])) = .ok (σ, List.ofFn L) :=
  let ⟨σ, L, h, _⟩ := C103_scales_partial (d := 2) (fun _ _ => 0) ![10, 2] ![1, 5] ![0, 1] (by intro i; fin_cases i <;> norm_num) 3 4 (by norm_num)
  ⟨σ, L, h⟩

/-- **C103**: without preprocessing of X the scales are those of the kernel, if it has a vector of length scales. -/
theorem C103_scales_dummy_partial (std c : ℝ) (ls : List ℝ) : scales .dummy std c (.vec ls) = .ok (√c * std, ls) := by
  simp [scales, PreX.invScale]

example : scales .dummy 3 4 (.vec [1, 5]) = .ok (√4 * 3, [1, 5]) := C103_scales_dummy_partial 3 4 [1, 5]

/-- **C103**, against the documentation: in one dimension (where scikit-learn stores the fitted length scale as a number) `scales` raises
without preprocessing of X, and with `Whitening` it always raises; with `Normalize_bounds` it works. -/
theorem C103_scales_counterexample (std c l w : ℝ) (v : KernelHyp.Val ℝ) :
    scales .dummy std c (.scalar l) = .error .typeError ∧ scales .whitening std c v = .error .attributeError ∧
    scales (.normalize [w]) std c (.scalar l) = .ok (√c * std, [l * w]) := by
  simp [scales, PreX.invScale]

end GPry.GprFit
