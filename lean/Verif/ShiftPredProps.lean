import Verif.ShiftProps
import Verif.AcqPtsProps
import Verif.NoraProps

set_option linter.all false

/-!
# Adding a constant to the log-posterior: predictions, acquisition functions, NORA (C143)
-/

namespace GPry.Shift

open GPry Predict Gp

variable {d n : ℕ}

/-- The surrogate with `c` added to the log-posterior, in `Predict.lean`. -/
def shiftG (c : ℝ) (st : St d n) : St d n :=
  { st with M := { st.M with mu := st.M.mu + c }, R := { st.R with y := fun i => st.R.y i + c } }

theorem data_shift (c : ℝ) (st : St d n) : (shiftG c st).M.data (shiftG c st).R = st.M.data st.R := by
  simp [Model.data, shiftG]

theorem mean_shiftG (c : ℝ) (st : St d n) (x : Fin d → ℝ) :
    (shiftG c st).M.mean (shiftG c st).chol (shiftG c st).R x = st.M.mean st.chol st.R x + c := by
  unfold Model.mean
  rw [data_shift]
  simp [shiftG]; ring

theorem std_shiftG (c : ℝ) (st : St d n) (x : Fin d → ℝ) :
    (shiftG c st).M.std (shiftG c st).chol (shiftG c st).R x = st.M.std st.chol st.R x := by
  unfold Model.std
  rw [data_shift]
  rfl

theorem ceiling_shift (c f : ℝ) (l : List ℝ) : ceiling f (l.map (· + c)) = (ceiling f l).map (· + c) := by
  unfold ceiling
  rw [maxOf_add, minOf_add]
  cases Tools.maxOf l <;> cases Tools.minOf l <;> simp [Except.map]
  ring

theorem means_shift (c : ℝ) (st : St d n) (X : List (Fin d → ℝ)) : (shiftG c st).means X = (st.means X).map (List.map (· + c)) := by
  unfold St.means
  have e1 : (X.map fun x => (shiftG c st).M.mean (shiftG c st).chol (shiftG c st).R x) = (X.map fun x => st.M.mean st.chol st.R x).map (· + c) := by
    simp [mean_shiftG, Function.comp_def]
  have e2 : List.ofFn (shiftG c st).R.y = (List.ofFn st.R.y).map (· + c) := by
    rw [List.map_ofFn]; rfl
  rw [e1, e2, show (shiftG c st).clip = st.clip from rfl]
  cases st.clip with
  | none => rfl
  | some f =>
    dsimp only
    rw [ceiling_shift]
    cases ceiling f (List.ofFn st.R.y) with
    | error e => rfl
    | ok t => simp [Except.map, Function.comp_def, min_add_add_right]

theorem maskSet_map {A B : Type*} (f : A → B) (v : A) : ∀ (m : List Bool) (l : List A), maskSet (f v) m (l.map f) = (maskSet v m l).map f
  | [], l => rfl
  | b :: m, [] => rfl
  | b :: m, a :: l => by
    simp only [maskSet, List.map_cons, maskSet_map f v m l]
    cases b <;> rfl

theorem maskGet_map {A B : Type*} (f : A → B) : ∀ (m : List Bool) (l : List A), maskGet m (l.map f) = (maskGet m l).map f
  | [], l => rfl
  | true :: m, [] => rfl
  | false :: m, [] => rfl
  | true :: m, a :: l => by simp only [maskGet, List.map_cons, maskGet_map f m l]
  | false :: m, a :: l => by simp only [maskGet, List.map_cons, maskGet_map f m l]

theorem scatter_map {A B : Type*} (f : A → B) : ∀ (m : List Bool) (v l : List A), scatter m (v.map f) (l.map f) = (scatter m v l).map f
  | [], v, l => rfl
  | true :: m, [], l => rfl
  | true :: m, v :: vs, [] => rfl
  | true :: m, v :: vs, a :: l => by simp only [scatter, List.map_cons, scatter_map f m vs l]
  | false :: m, vs, [] => rfl
  | false :: m, vs, a :: l => by simp only [scatter, List.map_cons, scatter_map f m vs l]

theorem scatter_full (c : ℝ) {A : Type*} : ∀ (m : List Bool) (X : List A) (vals : List ℝ), m.length = X.length → vals.length = (maskGet m X).length →
    scatter m ((vals.map (· + c)).map Ext.fin) (maskSet .negInf (m.map not) (X.map fun _ => Ext.fin 1)) =
      (scatter m (vals.map Ext.fin) (maskSet .negInf (m.map not) (X.map fun _ => Ext.fin 1))).map (shift c)
  | [], X, vals, h, h2 => by
    cases X with
    | nil => rfl
    | cons x X => simp at h
  | true :: m, [], vals, h, h2 => by simp at h
  | false :: m, [], vals, h, h2 => by simp at h
  | true :: m, x :: X, [], h, h2 => by simp [maskGet] at h2
  | true :: m, x :: X, v :: vals, h, h2 => by
    have ih := scatter_full c m X vals (by simpa using h) (by simpa [maskGet] using h2)
    simp only [List.map_cons, maskSet, scatter, Bool.not_true, ih]
    rfl
  | false :: m, x :: X, vals, h, h2 => by
    have ih := scatter_full c m X vals (by simpa using h) (by simpa [maskGet] using h2)
    simp only [List.map_cons, maskSet, scatter, Bool.not_false, ih]
    rfl

theorem means_length (st : St d n) (X : List (Fin d → ℝ)) (y : List ℝ) (h : st.means X = .ok y) : y.length = X.length := by
  unfold St.means at h
  cases hc : st.clip with
  | none => simp only [hc, Except.ok.injEq] at h; simp [← h]
  | some f =>
    simp only [hc] at h
    cases ht : ceiling f (List.ofFn st.R.y) with
    | error e => simp [ht] at h
    | ok t => simp only [ht, Except.ok.injEq] at h; simp [← h]

theorem svm_length {P : Type*} (s : Predict.Svm P) (X : List P) (m : List Bool) (h : s.predict X = .ok m) : m.length = X.length := by
  unfold Predict.Svm.predict at h
  split_ifs at h <;> simp only [Except.ok.injEq, reduceCtorEq] at h <;> simp [← h]

theorem trustMask_shift (c : ℝ) (st : St d n) (hm : st.minf = .negInf) (X : List (Fin d → ℝ)) (ign : Bool) (m : List (Ext ℝ)) :
    (shiftG c st).trustMask X ign (m.map (shift c)) = (st.trustMask X ign m).map (shift c) := by
  unfold St.trustMask
  rw [show (shiftG c st).trust = st.trust from rfl, show (shiftG c st).minf = st.minf from rfl, hm]
  cases (if ign then none else st.trust) with
  | none => rfl
  | some b => exact maskSet_map (shift c) .negInf _ _

/-- **C143**, gpr.py:1030-1230: `predict` with the classifier, the trust region and the ceiling. The means are shifted (minus infinity stays), the standard deviations are the same,
and so are the exceptions. -/
theorem C143_predict (c : ℝ) (st : St d n) (hf : st.fitted = true) (hm : st.minf = .negInf) (X : List (Fin d → ℝ)) (ign : Bool) :
    (shiftG c st).predict X ign = (st.predict X ign).map fun r => (r.1.map (shift c), r.2) := by
  have hs : ∀ Y : List (Fin d → ℝ), (Y.map fun x => (shiftG c st).M.std (shiftG c st).chol (shiftG c st).R x) = Y.map fun x => st.M.std st.chol st.R x :=
    fun Y => List.map_congr_left fun x _ => std_shiftG c st x
  unfold St.predict
  rw [show (shiftG c st).fitted = st.fitted from rfl, hf, show (shiftG c st).svm = st.svm from rfl]
  simp only [Bool.not_true, Bool.false_eq_true, if_false, means_shift, hs]
  cases hsv : st.svm with
  | none =>
    dsimp only
    cases hy : st.means X with
    | error e => rfl
    | ok y =>
      simp only [Except.map]
      have : (y.map (· + c)).map Ext.fin = (y.map Ext.fin).map (shift c) := by simp [Function.comp_def]
      rw [this, trustMask_shift c st hm]
  | some s =>
    dsimp only
    rw [show (shiftG c st).M.trX = st.M.trX from rfl]
    cases hp : s.predict (X.map st.M.trX) with
    | error e => rfl
    | ok fin =>
      dsimp only
      split_ifs with h0
      · simp [Except.map, show (shiftG c st).minf = st.minf from rfl, hm]
      · cases hy : st.means (maskGet fin X) with
        | error e => rfl
        | ok y =>
          simp only [Except.map]
          rw [show (shiftG c st).minf = st.minf from rfl, hm,
            scatter_full c fin X y (by simpa using svm_length s _ fin hp) (means_length st _ y hy), trustMask_shift c st hm]

/-- **C143**, gpr.py:1302-1352: `predict_std`. -/
theorem C143_std (c : ℝ) (st : St d n) (X : List (Fin d → ℝ)) : (shiftG c st).predictStd X = st.predictStd X := by
  have hs : ∀ Y : List (Fin d → ℝ), (Y.map fun x => (shiftG c st).M.std (shiftG c st).chol (shiftG c st).R x) = Y.map fun x => st.M.std st.chol st.R x :=
    fun Y => List.map_congr_left fun x _ => std_shiftG c st x
  unfold St.predictStd
  simp only [hs]
  rfl

/-- **C143**, gpr.py:1231-1267: the gradients. -/
theorem C143_gradient (c : ℝ) (st : St d n) (general : ℕ → ℝ → ℝ) (e : Kernels.KExpr d) (x : Fin d → ℝ) :
    (shiftG c st).predictGrad general e x = st.predictGrad general e x := by
  unfold St.predictGrad
  rw [data_shift]
  rfl

/-! ## Acquisition functions -/

open AcqPts

theorem eiEntry_shift (cdf pdf : ℝ → ℝ) (yOpt xi c : ℝ) (mu : Ext ℝ) (std : ℝ) : eiEntry cdf pdf (yOpt + c) xi (shift c mu) std = eiEntry cdf pdf yOpt xi mu std := by
  unfold eiEntry
  rw [subFin_shift]

theorem eiValues_shift (cdf pdf : ℝ → ℝ) (yOpt xi c : ℝ) (mus : List (Ext ℝ)) (stds : List ℝ) :
    eiValues cdf pdf (yOpt + c) xi (mus.map (shift c)) stds = eiValues cdf pdf yOpt xi mus stds := by
  unfold eiValues
  simp only [maskGet_map, List.zipWith_map_left, eiEntry_shift, List.map_map, Function.comp_def]

theorem logExpEntry_shift (zeta noise base c : ℝ) (mu : Ext ℝ) (std : ℝ) (h : mu.isFinite = true) :
    Acq.logExpEntry zeta noise (base + c) (shift c mu) std = Acq.logExpEntry zeta noise base mu std := by
  cases mu <;> simp [Acq.logExpEntry, Acq.logExpF, Ext.isFinite] at h ⊢

theorem zipWith_masked (c : ℝ) (e e' : Ext ℝ → ℝ → Ext ℝ) (he : ∀ mu s, mu.isFinite = true → e (shift c mu) s = e' mu s) :
    ∀ (mus : List (Ext ℝ)) (stds : List ℝ) (f : Ext ℝ → ℝ → Bool) (hf : ∀ mu s, f mu s = true → mu.isFinite = true),
    List.zipWith e ((maskGet (List.zipWith f mus stds) mus).map (shift c)) (maskGet (List.zipWith f mus stds) stds) =
      List.zipWith e' (maskGet (List.zipWith f mus stds) mus) (maskGet (List.zipWith f mus stds) stds)
  | [], stds, f, hf => by simp [maskGet]
  | mu :: mus, [], f, hf => by simp [maskGet]
  | mu :: mus, s :: stds, f, hf => by
    have ih := zipWith_masked c e e' he mus stds f hf
    cases hb : f mu s with
    | false => simpa only [List.zipWith_cons_cons, hb, maskGet] using ih
    | true => simp only [List.zipWith_cons_cons, hb, maskGet, List.map_cons, he mu s (hf mu s hb), ih]

theorem logExpValues_shift (zeta noise base c : ℝ) (mus : List (Ext ℝ)) (stds : List ℝ) :
    Acq.logExpValues zeta noise (base + c) (mus.map (shift c)) stds = Acq.logExpValues zeta noise base mus stds := by
  unfold Acq.logExpValues
  simp only [List.zipWith_map_left, isFinite_shift, maskGet_map]
  have := zipWith_masked c _ _ (fun mu s h => logExpEntry_shift zeta noise base c mu s h) mus stds (fun mu std => decide (0 < std ^ 2 - noise ^ 2) && mu.isFinite) (fun mu s h => by simp at h; exact h.2)
  rw [List.zipWith_map_left] at this
  rw [this]

theorem nonlinearValues_shift (zeta noise base c : ℝ) (mus : List (Ext ℝ)) (stds : List ℝ) :
    nonlinearValues zeta noise (base + c) (mus.map (shift c)) stds = nonlinearValues zeta noise base mus stds := by
  unfold nonlinearValues
  simp only [List.zipWith_map_left, isFinite_shift, maskGet_map, nonlinearV_eq]
  have := zipWith_masked c (fun mu std => add (mulR (2 * zeta) (mu.subFin (base + c))) (.fin (Acq.safeLogExpm1 (Real.sqrt (max (std ^ 2 - noise ^ 2) 0)))))
    (fun mu std => add (mulR (2 * zeta) (mu.subFin base)) (.fin (Acq.safeLogExpm1 (Real.sqrt (max (std ^ 2 - noise ^ 2) 0)))))
    (fun mu s h => by cases mu <;> simp [shift, Ext.subFin, Ext.addFin, Ext.isFinite] at h ⊢) mus stds
    (fun mu std => decide (0 < std ^ 2 - noise ^ 2) && mu.isFinite) (fun mu s h => by simp at h; exact h.2)
  rw [List.zipWith_map_left] at this
  rw [this]

/-- The acquisition functions that compare the mean with the best value, or do not look at it: all but `Mu` and `ExponentialMu`. -/
def relative : Af → Prop
  | .leaf (.mu _) => False
  | .leaf (.expMu _) => False
  | .leaf _ => True
  | .sum a b => relative a ∧ relative b
  | .prod a b => relative a ∧ relative b
  | .pow a _ => relative a

/-- **C143**, acquisition_functions.py: the value of an acquisition function, and of a sum, product or power of them, without `Mu` and `ExponentialMu`. -/
theorem C143_acquisition (cdf pdf : ℝ → ℝ) (pw : ℝ → Ext ℝ → Ext ℝ) (c : ℝ) (g : Surrogate d n) (hf : g.st.fitted = true) (hm : g.st.minf = .negInf) (X : List (Fin d → ℝ)) (a : Af)
    (ha : relative a) : a.eval cdf pdf pw { g with st := shiftG c g.st, yMax := g.yMax + c } X = a.eval cdf pdf pw g X := by
  have hno : noGrad { g with st := shiftG c g.st, yMax := g.yMax + c } X = (noGrad g X).map fun r => (r.1.map (shift c), r.2) := by
    unfold noGrad
    dsimp only
    rw [C143_predict c g.st hf hm]
    cases g.st.predict X false <;> rfl
  have hwi : withGrad { g with st := shiftG c g.st, yMax := g.yMax + c } X = (withGrad g X).map fun r => (r.1.map (shift c), r.2) := by
    unfold withGrad
    dsimp only
    rw [C143_predict c g.st hf hm]
    by_cases hl : X.length ≠ 1
    · rw [if_pos hl, if_pos hl]; rfl
    · rw [if_neg hl, if_neg hl]
      cases g.st.predict X false with
      | error e => rfl
      | ok r =>
        dsimp only [Except.map]
        split_ifs <;> rfl
  induction a with
  | leaf l =>
    cases l with
    | const k => rfl
    | mu a => exact ha.elim
    | expMu a => exact ha.elim
    | std a => simp only [Af.eval, Leaf.eval, hno]; cases noGrad g X <;> rfl
    | expStd a => simp only [Af.eval, Leaf.eval, hwi]; cases withGrad g X <;> rfl
    | ei xi => simp only [Af.eval, Leaf.eval, hno]; cases noGrad g X <;> simp [Except.map, eiValues_shift]
    | logExp zeta sn => simp only [Af.eval, Leaf.eval, hno]; cases noGrad g X <;> simp [Except.map, logExpValues_shift]
    | nonlinear zeta sn => simp only [Af.eval, Leaf.eval, hno]; cases noGrad g X <;> simp [Except.map, nonlinearValues_shift]
  | sum a b iha ihb => simp only [Af.eval, iha ha.1, ihb ha.2]
  | prod a b iha ihb => simp only [Af.eval, iha ha.1, ihb ha.2]
  | pow a p iha => simp only [Af.eval, iha ha]

/-! ## NORA -/

open Nora in
theorem within_map {P A B : Type*} (f : A → B) (inB : Option (P → Bool)) (X : List P) (l : List A) : within inB X (l.map f) = (within inB X l).map f := by
  unfold within
  cases inB with
  | none => rfl
  | some g =>
    unfold sel
    simp only [List.zip_map_right, List.filter_map, List.map_map]
    rfl

open Nora in
theorem drop0_map {A B : Type*} (f : A → B) (w : List (Ext ℝ)) (l : List A) : drop0 w (l.map f) = (drop0 w l).map f := by
  unfold drop0
  simp only [List.zip_map_right, List.filter_map, List.map_map]
  rfl

open Nora in
/-- **C143**, gp_acquisition.py:875-919: reweighting a stored sample with new predictions. Points, weights and standard deviations are the same. -/
theorem C143_reweight {P : Type*} (c : ℝ) (pred : P → Ext ℝ × ℝ) (inB : Option (P → Bool)) (s : Sample P) :
    reweight (fun x => (shift c (pred x).1, (pred x).2)) inB { s with y := s.y.map (shift c) } =
      (reweight pred inB s).map fun r => { r with y := r.y.map (shift c) } := by
  unfold reweight
  dsimp only
  have e1 : ((within inB s.X s.X).map fun x => shift c (pred x).1) = ((within inB s.X s.X).map fun x => (pred x).1).map (shift c) := by simp [Function.comp_def]
  have e2 : oldWeights inB { s with y := s.y.map (shift c) } (within inB s.X s.X) = oldWeights inB s (within inB s.X s.X) := rfl
  rw [e1, e2, within_map]
  simp only [List.zipWith_map_left, List.zipWith_map_right, drop0_map]
  simp only [sub_shift]
  generalize Ext.pyMax (_ : List (Ext ℝ)) = M
  cases M <;> rfl

/-! ## What does change -/

/-- **C143**: the acquisition function `Mu` takes the constant up, so that it is excluded from `C143_acquisition`. -/
theorem C143_mu_counterexample (cdf pdf : ℝ → ℝ) (pw : ℝ → Ext ℝ → Ext ℝ) (c a : ℝ) (hc : c ≠ 0) (g : Surrogate d n) (hf : g.st.fitted = true) (hm : g.st.minf = .negInf)
    (x : Fin d → ℝ) (v s : ℝ) (h : g.st.predict [x] false = .ok ([.fin v], [s])) :
    ((Af.leaf (.mu a)).eval cdf pdf pw { g with st := shiftG c g.st, yMax := g.yMax + c } [x]).2 = .ok [.fin (v + c)] ∧
      ((Af.leaf (.mu a)).eval cdf pdf pw { g with st := shiftG c g.st, yMax := g.yMax + c } [x]).2 ≠ ((Af.leaf (.mu a)).eval cdf pdf pw g [x]).2 := by
  have h1 : ((Af.leaf (.mu a)).eval cdf pdf pw { g with st := shiftG c g.st, yMax := g.yMax + c } [x]).2 = .ok [.fin (v + c)] := by
    simp only [Af.eval, Leaf.eval, noGrad]
    rw [C143_predict c g.st hf hm, h]; rfl
  have h2 : ((Af.leaf (.mu a)).eval cdf pdf pw g [x]).2 = .ok [.fin v] := by
    simp only [Af.eval, Leaf.eval, noGrad, h]; rfl
  refine ⟨h1, ?_⟩
  rw [h1, h2]
  simpa using hc

/-- **C143**: without preprocessor of the targets (mean 0 and scale 1 whatever the data) the prediction far from all the training points (where the kernel vanishes) stays
zero, whatever the constant. -/
theorem C143_dummy_counterexample (c : ℝ) (hc : c ≠ 0) (st : St d n) (h0 : st.M.mu = 0) (x : Fin d → ℝ) (hk : ∀ z, z ∈ Set.range (fun i => st.M.trX (st.R.X i)) → st.M.k (st.M.trX x) z = 0) :
    st.M.mean st.chol { st.R with y := fun i => st.R.y i + c } x ≠ st.M.mean st.chol st.R x + c := by
  have h : ∀ R : Raw (Fin n) (Fin d → ℝ), R.X = st.R.X → st.M.mean st.chol R x = 0 := by
    intro R hR
    have : (st.M.data R).kTrans st.M.k (st.M.trX x) = 0 := by
      funext i
      simp only [Data.kTrans, Model.data, hR, Pi.zero_apply]
      exact hk _ ⟨i, rfl⟩
    simp [Model.mean, Data.mean, this, h0]
  rw [h st.R rfl, zero_add]
  exact fun e => hc ((h { st.R with y := fun i => st.R.y i + c } rfl ▸ e).symm)

set_option exponentiation.threshold 400 in
open Nora in
/-- **C143**: with UltraNest, which of a point excluded by the surrogate and a point that is not has the larger value depends on the constant. -/
theorem C143_ultranest_counterexample (st : St d n) (hf : st.fitted = true) (hm : st.minf = .negInf) (hs : 0 ≤ st.M.s) (x z : Fin d → ℝ) (hx : Excluded st x) (hz : ¬ Excluded st z)
    (ms : List (Ext ℝ)) (ss : List ℝ) (h : st.predict [x, z] false = .ok (ms, ss)) :
    (∃ c a b, logp (shiftG c st) [x, z] = .ok [.fin a, .fin b] ∧ a < b) ∧ ∃ c a b, logp (shiftG c st) [x, z] = .ok [.fin a, .fin b] ∧ b < a := by
  obtain ⟨v, e, _⟩ := logp_two st hf hm hs x z hx hz ms ss h
  have key : ∀ c, logp (shiftG c st) [x, z] = .ok [.fin (-1e-300), .fin (v + c)] := by
    intro c
    have hp : (shiftG c st).predict [x, z] false = .ok ([.negInf, .fin (v + c)], ss) := by
      rw [C143_predict c st hf hm, h, e]; rfl
    obtain ⟨v', e1, e2⟩ := logp_two (shiftG c st) hf hm hs x z hx hz _ ss hp
    simp at e1
    rw [e2, e1]
  exact ⟨⟨-v, _, _, key _, by norm_num⟩, ⟨-v - 1, _, _, key _, by ring_nf; norm_num⟩⟩

/-! ## Each theorem applied to concrete data -/

/-- The training target is 3 (and so is the mean of the preprocessor) in place of 0. -/
example : (shiftG 3 exG.st).M.mu = 3 ∧ (shiftG 3 exG.st).R.y 0 = 3 := by simp [shiftG, exG, exStd]

example (X : List (Fin 1 → ℝ)) : (shiftG 3 exG.st).predict X false = (exG.st.predict X false).map fun r => (r.1.map (shift 3), r.2) :=
  C143_predict 3 exG.st rfl rfl X false

example (X : List (Fin 1 → ℝ)) : (shiftG 3 exG.st).predictStd X = exG.st.predictStd X := C143_std 3 exG.st X

example (x : Fin 1 → ℝ) : (shiftG 3 exG.st).predictGrad (fun _ _ => 0) (.rbf fun _ => 1) x = exG.st.predictGrad (fun _ _ => 0) (.rbf fun _ => 1) x := C143_gradient 3 exG.st _ _ x

/-- `LogExp` plus twice the expected improvement. -/
example (pw : ℝ → Ext ℝ → Ext ℝ) (X : List (Fin 1 → ℝ)) :
    (Af.sum (.leaf (.logExp 1 none)) (.prod (.leaf (.const 2)) (.leaf (.ei (1 / 100))))).eval normCdf normPdf pw { exG with st := shiftG 3 exG.st, yMax := exG.yMax + 3 } X =
      (Af.sum (.leaf (.logExp 1 none)) (.prod (.leaf (.const 2)) (.leaf (.ei (1 / 100))))).eval normCdf normPdf pw exG X :=
  C143_acquisition normCdf normPdf pw 3 exG rfl rfl X _ (by simp [relative])

example : Nora.reweight (fun x : ℕ => (shift 3 (if x = 0 then .negInf else .fin (x : ℝ)), (1 : ℝ))) none ⟨[0, 1, 2], [shift 3 (.fin 0), shift 3 (.fin 1), shift 3 (.fin 1)], [1, 1, 1], none⟩ =
    (Nora.reweight (fun x : ℕ => (if x = 0 then .negInf else .fin (x : ℝ), (1 : ℝ))) none ⟨[0, 1, 2], [.fin 0, .fin 1, .fin 1], [1, 1, 1], none⟩).map
      fun r => { r with y := r.y.map (shift 3) } :=
  C143_reweight 3 (fun x : ℕ => (if x = 0 then .negInf else .fin (x : ℝ), (1 : ℝ))) none ⟨[0, 1, 2], [.fin 0, .fin 1, .fin 1], [1, 1, 1], none⟩

/-- Without noise and with a kernel without correlations. -/
noncomputable def exDummy : St 1 1 :=
  { exStd with M := ⟨fun x y => if x 0 = y 0 then 1 else 0, id, 0, 1⟩, R := ⟨fun _ _ => 0, fun _ => 5, fun _ => 0⟩ }

example : exDummy.M.mean exDummy.chol { exDummy.R with y := fun i => exDummy.R.y i + 3 } (fun _ => 1) ≠ exDummy.M.mean exDummy.chol exDummy.R (fun _ => 1) + 3 :=
  C143_dummy_counterexample 3 (by norm_num) exDummy rfl _ (by rintro z ⟨i, rfl⟩; simp [exDummy])

example (pw : ℝ → Ext ℝ → Ext ℝ) (v s : ℝ) (h : exG.st.predict [fun _ => 0] false = .ok ([.fin v], [s])) :
    ((Af.leaf (.mu 1)).eval normCdf normPdf pw { exG with st := shiftG 3 exG.st, yMax := exG.yMax + 3 } [fun _ => 0]).2 ≠ ((Af.leaf (.mu 1)).eval normCdf normPdf pw exG [fun _ => 0]).2 :=
  (C143_mu_counterexample normCdf normPdf pw 3 1 (by norm_num) exG rfl rfl _ v s h).2

open Nora in
example : ∃ c a b, logp (shiftG c exG.st) [fun _ => 1, fun _ => 0] = .ok [.fin a, .fin b] ∧ b < a := by
  obtain ⟨ms, ss, hp⟩ := C14_returns exG.st (by intro c hc; cases hc) [fun _ => 1, fun _ => 0] false
  refine (C143_ultranest_counterexample exG.st rfl rfl (show (0 : ℝ) ≤ 2 by norm_num) _ _ (Or.inr exG_outside) ?_ ms ss hp).2
  rintro (⟨c, hc, -⟩ | ⟨_, b, hb, j, hj⟩)
  · cases hc
  · simp only [exG, Option.some.injEq] at hb
    subst hb
    norm_num at hj

end GPry.Shift
