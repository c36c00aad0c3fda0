import Verif.UnitsProps
import Verif.StatProps
import Verif.AlignProps

set_option linter.all false

/-!
# The order of the parameters: C150

The parameters in another order: `x ∘ σ` for a permutation `σ`, with the bounds and the length scales of the kernel in the same order. Unlike a change of units
(`UnitsProps`), this also changes the transformed points and the hyperparameters.
-/

namespace GPry.Order

open GPry Gpr

variable {K : Type*} [Field K] [LinearOrder K] [IsStrictOrderedRing K] {P PX Θ : Type*}

/-! ## The regressor -/

/-- The regressor in the other order: `u` for the points, `v` for the preprocessor of the points, `w` for the hyperparameters. -/
def conv (u : P → P) (v : PX → PX) (w : Θ → Θ) (st : State P PX Θ K) : State P PX Θ K :=
  { st with xAll := st.xAll.map u, xTrain := st.xTrain.map u, px := v st.px, xTrain' := st.xTrain'.map u, theta := st.theta.map w,
            factors := st.factors.map fun f => ⟨f.xs.map u, f.ys, f.noiseVar, w f.theta⟩ }

def convC (u : P → P) (q : Call P K) : Call P K := { q with batch := q.batch.map fun b => (b.1.map u, b.2) }

/-- What is needed: the preprocessor of the points works on each parameter, that of the targets does not look at the points, the Cholesky decomposition
succeeds or not as before, and the optimiser finds the same hyperparameters, in the other order. -/
structure Equivariant (cfg : Cfg P PX Θ K) (u : P → P) (v : PX → PX) (w : Θ → Θ) : Prop where
  fitX : ∀ px xs ys, cfg.fitX (v px) (xs.map u) ys = v (cfg.fitX px xs ys)
  trX : ∀ px x, cfg.trX (v px) (u x) = u (cfg.trX px x)
  fitY : ∀ q xs ys, cfg.fitY q (xs.map u) ys = cfg.fitY q xs ys
  cholOk : ∀ xs nv th, cfg.cholOk (xs.map u) nv (w th) = cfg.cholOk xs nv th
  optimise : ∀ xs ys nv th n, cfg.optimise (xs.map u) ys nv (th.map w) n = w (cfg.optimise xs ys nv th n)

def convR {E : Type*} (u : P → P) (v : PX → PX) (w : Θ → Θ) (r : State P PX Θ K × E) : State P PX Θ K × E := (conv u v w r.1, r.2)

variable (cfg : Cfg P PX Θ K) (u : P → P) (v : PX → PX) (w : Θ → Θ) (hc : Equivariant cfg u v w)
include hc

theorem updateModel_conv (st : State P PX Θ K) : updateModel cfg (conv u v w st) = convR u v w (updateModel cfg st) := by
  unfold updateModel
  by_cases h1 : st.newly < 1
  · rw [if_pos h1, if_pos (show (conv u v w st).newly < 1 from h1)]; rfl
  · rw [if_neg h1, if_neg (show ¬ (conv u v w st).newly < 1 from h1)]
    rw [show (conv u v w st).theta = st.theta.map w from rfl]
    cases h2 : st.theta with
    | none => rfl
    | some th =>
      simp only [Option.map_some, show (conv u v w st).xTrain' = st.xTrain'.map u from rfl, show (conv u v w st).noiseVar = st.noiseVar from rfl,
        show (conv u v w st).yTrain' = st.yTrain' from rfl, hc.cholOk]
      by_cases h3 : (!(st.noiseVar.all Ext.isFinite && st.yTrain'.all Ext.isFinite)) = true
      · rw [if_pos h3, if_pos h3]; rfl
      · rw [if_neg h3, if_neg h3]
        by_cases h4 : (!cfg.cholOk st.xTrain' st.noiseVar th) = true
        · rw [if_pos h4, if_pos h4]; rfl
        · rw [if_neg h4, if_neg h4]; simp [convR, conv, h2]

theorem fitHyper_conv (n : Option ℕ) (st : State P PX Θ K) : fitHyper cfg n (conv u v w st) = convR u v w (fitHyper cfg n st) := by
  unfold fitHyper
  by_cases h1 : n.getD cfg.nRestarts = 0 ∨ cfg.canOptimise = false
  · rw [if_pos h1, if_pos h1, show (conv u v w st).theta = st.theta.map w from rfl]
    cases h2 : st.theta with
    | none => rfl
    | some th => exact updateModel_conv cfg u v w hc st
  · rw [if_neg h1, if_neg h1]
    have he : (conv u v w st).xTrain'.isEmpty = st.xTrain'.isEmpty := by
      show (st.xTrain'.map u).isEmpty = _
      simp
    by_cases h2 : st.xTrain'.isEmpty = true
    · rw [if_pos h2, if_pos (by rw [he]; exact h2)]; rfl
    · rw [if_neg h2, if_neg (by rw [he]; exact h2)]
      have := updateModel_conv cfg u v w hc { st with theta := some (cfg.optimise st.xTrain' st.yTrain' st.noiseVar st.theta (n.getD cfg.nRestarts)) }
      have ho : cfg.optimise (conv u v w st).xTrain' (conv u v w st).yTrain' (conv u v w st).noiseVar (conv u v w st).theta (n.getD cfg.nRestarts) =
          w (cfg.optimise st.xTrain' st.yTrain' st.noiseVar st.theta (n.getD cfg.nRestarts)) := hc.optimise _ _ _ _ _
      simp only [ho]
      show (match updateModel cfg (conv u v w { st with theta := some (cfg.optimise st.xTrain' st.yTrain' st.noiseVar st.theta (n.getD cfg.nRestarts)) }) with
        | (st', some e) => (st', some e)
        | (st', none) => ({ st' with fitted := true }, none)) = _
      rw [this]
      rcases updateModel cfg { st with theta := some (cfg.optimise st.xTrain' st.yTrain' st.noiseVar st.theta (n.getD cfg.nRestarts)) } with ⟨st', _ | e⟩ <;> rfl

theorem appendFit_conv (st : State P PX Θ K) (q : Call P K) (mask : List Bool) (noise : List (Ext K)) :
    appendFit cfg (conv u v w st) (convC u q) mask noise = convR u v w (appendFit cfg st q mask noise) := by
  unfold appendFit
  have hx : ((maskL mask st.xAll).map u).map (cfg.trX (v st.px)) = ((maskL mask st.xAll).map (cfg.trX st.px)).map u := by
    simp [Function.comp_def, hc.trX]
  simp only [show (conv u v w st).yAll = st.yAll from rfl, show (conv u v w st).py = st.py from rfl, show (conv u v w st).xAll = st.xAll.map u from rfl,
    show (conv u v w st).px = v st.px from rfl, Shift.maskL_map, hx]
  cases h1 : mapE st.py.transform (maskL mask st.yAll) with
  | error e => rfl
  | ok y' =>
    cases h2 : maskChecked mask noise with
    | error e => rfl
    | ok nv =>
      simp only [show (convC u q).fit = q.fit from rfl]
      have e : ∀ z : State P PX Θ K,
          (match q.fit with | .yes n => fitHyper cfg n (conv u v w z) | _ => updateModel cfg (conv u v w z)) =
          convR u v w (match q.fit with | .yes n => fitHyper cfg n z | _ => updateModel cfg z) := by
        intro z
        cases q.fit with
        | yes n => exact fitHyper_conv cfg u v w hc n _
        | no => exact updateModel_conv cfg u v w hc _
        | invalid => exact updateModel_conv cfg u v w hc _
      exact e { st with xTrain := maskL mask st.xAll, yTrain := maskL mask st.yAll, xTrain' := (maskL mask st.xAll).map (cfg.trX st.px), yTrain' := y', noiseVar := nv.map Ext.sq, newly := st.nLastFinite }

theorem tail_conv (st : State P PX Θ K) (q : Call P K) (fc : Bool) (thr : Ext K) (mask : List Bool) (r : Except Gpr.Err (PreY K)) :
    Shift.tail cfg (conv u v w st) (convC u q) fc thr mask r = convR u v w (Shift.tail cfg st q fc thr mask r) := by
  cases r with
  | error e => rfl
  | ok py =>
    simp only [Shift.tail]
    simp only [show (conv u v w st).yAll = st.yAll from rfl,
      show (conv u v w st).noise = st.noise from rfl, show (conv u v w st).svm = st.svm from rfl, show (conv u v w st).nLast = st.nLast from rfl]
    cases h2 : mapE py.transform st.yAll with
    | error e => rfl
    | ok y' =>
      dsimp only
      cases h3 : mapE py.transformScale (match st.noise with
        | .scalar s => List.replicate y'.length (.fin s)
        | .array ks => ks.map .fin) with
      | error e => rfl
      | ok noise' =>
        dsimp only
        have hend : ∀ (st2 : State P PX Θ K) (lm : List Bool),
            (if lm.count true = 0 ∧ ((convC u q).batch.isNone && (convC u q).fit != .no) = false then
              (({ conv u v w st2 with nLastFinite := lm.count true } : State P PX Θ K), (none : Option Gpr.Err))
              else appendFit cfg { conv u v w st2 with nLastFinite := lm.count true } (convC u q) mask noise') =
            convR u v w (if lm.count true = 0 ∧ (q.batch.isNone && q.fit != .no) = false then
              (({ st2 with nLastFinite := lm.count true } : State P PX Θ K), (none : Option Gpr.Err))
              else appendFit cfg { st2 with nLastFinite := lm.count true } q mask noise') := by
          intro st2 lm
          have : (convC u q).batch.isNone = q.batch.isNone := by simp [convC]
          rw [this, show (convC u q).fit = q.fit from rfl]
          by_cases h : lm.count true = 0 ∧ (q.batch.isNone && q.fit != .no) = false
          · rw [if_pos h, if_pos h]; rfl
          · rw [if_neg h, if_neg h]
            exact appendFit_conv cfg u v w hc { st2 with nLastFinite := lm.count true } q mask noise'
        cases hu : cfg.useSvm
        · exact hend { st with py := py } _
        · cases fc
          · exact hend { st with py := py } _
          · simp only [if_true]
            cases h4 : py.transformScale thr with
            | error e => rfl
            | ok thr' =>
              dsimp only
              rcases h5 : st.svm.fit y' thr' with ⟨svm, e | f⟩
              · rfl
              · dsimp only
                by_cases hfm : f = mask
                · simp only [hfm, if_true]
                  exact hend { st with py := py, svm := svm } _
                · simp only [hfm, if_false]; rfl

theorem appendMid_conv (st : State P PX Θ K) (q : Call P K) (fc : Bool) (thr : Ext K) (mask : List Bool) :
    appendMid cfg (conv u v w st) (convC u q) fc thr mask = convR u v w (appendMid cfg st q fc thr mask) := by
  rw [Shift.appendMid_eq, Shift.appendMid_eq]
  simp only [show (conv u v w st).xAll = st.xAll.map u from rfl, show (conv u v w st).yAll = st.yAll from rfl, show (conv u v w st).py = st.py from rfl,
    show (conv u v w st).px = v st.px from rfl, Shift.maskL_map, hc.fitX, hc.fitY, List.length_map]
  by_cases hl : mask.length ≠ st.xAll.length
  · rw [if_pos hl, if_pos hl]; rfl
  · rw [if_neg hl, if_neg hl]
    cases fc
    · exact tail_conv cfg u v w hc st q false thr mask (.ok st.py)
    · exact tail_conv cfg u v w hc { st with px := cfg.fitX st.px (maskL mask st.xAll) (maskL mask st.yAll) } q true thr mask _

/-- **C150**: `append_to_data` with the parameters in another order does the same (classification, transformed points and targets, hyperparameters, matrices, exceptions). -/
theorem C150_append (st : State P PX Θ K) (q : Call P K) :
    append cfg (conv u v w st) (convC u q) = (conv u v w (append cfg st q).1, (append cfg st q).2) := by
  show _ = convR u v w (append cfg st q)
  unfold append
  have hb : (convC u q).batch.isNone = q.batch.isNone := by simp [convC]
  have hx : (convC u q).xs = q.xs.map u := by unfold Call.xs convC; cases q.batch <;> rfl
  have hy : (convC u q).ys = q.ys := by unfold Call.ys convC; cases q.batch <;> rfl
  simp only [show (convC u q).fit = q.fit from rfl, show (convC u q).noise = q.noise from rfl, show (convC u q).fitClf = q.fitClf from rfl, hb, hx, hy,
    show (conv u v w st).noise = st.noise from rfl, show (conv u v w st).xAll = st.xAll.map u from rfl, show (conv u v w st).yAll = st.yAll from rfl,
    ← List.map_append]
  cases hf : q.fit with
  | invalid => rfl
  | no | yes =>
    dsimp only
    by_cases h1 : (q.batch.isNone && q.noise.isSome) = true
    · rw [if_pos h1, if_pos h1]; rfl
    rw [if_neg h1, if_neg h1]
    cases h3 : validateNoise st.noise q.noise q.ys.length with
    | error e => rfl
    | ok nz =>
      dsimp only
      cases h4 : updateNoise st.noise nz (st.yAll ++ q.ys).length with
      | error e => rfl
      | ok noise =>
        dsimp only
        cases hu : cfg.useSvm
        · exact appendMid_conv cfg u v w hc { st with nLast := q.ys.length, xAll := st.xAll ++ q.xs, yAll := st.yAll ++ q.ys, noise := noise } q _ cfg.thr _
        · simp only [if_true]
          cases h5 : diffThresholdKeepN cfg.eps (st.yAll ++ q.ys) cfg.keepMin cfg.thr with
          | error e => rfl
          | ok thr =>
            dsimp only
            cases h6 : isFiniteAll thr (st.yAll ++ q.ys) with
            | error e => rfl
            | ok mask =>
              exact appendMid_conv cfg u v w hc { st with nLast := q.ys.length, xAll := st.xAll ++ q.xs, yAll := st.yAll ++ q.ys, noise := noise } q _ thr mask

/-- **C150**: a whole history of calls. -/
theorem C150_history (st : State P PX Θ K) (qs : List (Call P K)) : run cfg (conv u v w st) (qs.map (convC u)) = (run cfg st qs).map (conv u v w) := by
  induction qs generalizing st with
  | nil => rfl
  | cons q qs ih =>
    simp only [List.map_cons, run, C150_append cfg u v w hc]
    rcases append cfg st q with ⟨st', _ | e⟩
    · exact ih st'
    · rfl

omit hc

/-! ## The runner -/

section
variable (hc : Equivariant cfg u v w)
include hc

theorem nFiniteNew_conv {α : Type*} (acc : List (α × Ext K)) (f : α → α) : ((acc.map fun q => (f q.1, q.2)).map Prod.snd) = acc.map Prod.snd := by
  simp [Function.comp_def]

theorem initRounds_conv (p k needed : ℕ) (draw : ℕ → ℕ → ℕ → P × Ext K) :
    ∀ (n i : ℕ) (acc : List (P × Ext K)),
      Run.initRounds cfg p k needed (fun i r j => (u (draw i r j).1, (draw i r j).2)) n i (acc.map fun q => (u q.1, q.2)) =
        ((Run.initRounds cfg p k needed draw n i acc).1.map (fun q => (u q.1, q.2)), (Run.initRounds cfg p k needed draw n i acc).2)
  | 0, i, acc => rfl
  | n + 1, i, acc => by
    have e : (acc.map fun q => (u q.1, q.2)) ++ Run.roundPts p k (fun i r j => (u (draw i r j).1, (draw i r j).2)) i =
        (acc ++ Run.roundPts p k draw i).map fun q => (u q.1, q.2) := by
      rw [List.map_append]
      congr 1
      simp [Run.roundPts, List.map_flatMap, Function.comp_def]
    unfold Run.initRounds
    simp only [e]
    have e2 : ((acc ++ Run.roundPts p k draw i).map fun q => (u q.1, q.2)).map Prod.snd = (acc ++ Run.roundPts p k draw i).map Prod.snd := by
      simp [Function.comp_def]
    rw [e2]
    split_ifs
    · rfl
    · exact initRounds_conv p k needed draw n (i + 1) _

/-- **C150**, run.py:1071-1198: initial training on `p` processes, with the points drawn in the other order. -/
theorem C150_initial (p nInitial maxInitial : ℕ) (verbose : ℤ) (draw : ℕ → ℕ → ℕ → P × Ext K) (g : State P PX Θ K) :
    Run.initialTraining cfg p nInitial maxInitial verbose (fun i r j => (u (draw i r j).1, (draw i r j).2)) (conv u v w g) =
      (Run.initialTraining cfg p nInitial maxInitial verbose draw g).map fun r => (r.1.map fun q => (u q.1, q.2), conv u v w r.2) := by
  have hz : (conv u v w g).xTrain.zip (conv u v w g).yTrain = (g.xTrain.zip g.yTrain).map fun q => (u q.1, q.2) := by
    show (g.xTrain.map u).zip g.yTrain = _
    rw [List.zip_map_left]; rfl
  unfold Run.initialTraining
  rw [hz, show (conv u v w g).yTrain = g.yTrain from rfl]
  simp only [initRounds_conv cfg u v w hc]
  by_cases hk : Mpi.ceilDiv (nInitial - g.yTrain.length) p = 0
  · rw [if_pos hk, if_pos hk]
    split_ifs <;> rfl
  · rw [if_neg hk, if_neg hk]
    rcases Run.initRounds cfg p (Mpi.ceilDiv (nInitial - g.yTrain.length) p) (nInitial - g.yTrain.length) draw
      (Mpi.ceilDiv maxInitial (Mpi.ceilDiv (nInitial - g.yTrain.length) p)) 0 (g.xTrain.zip g.yTrain) with ⟨acc, _ | _⟩
    · rfl
    · dsimp only
      have e := C150_append cfg u v w hc g { batch := some (acc.map Prod.fst, acc.map Prod.snd) }
      have e2 : convC u { batch := some (acc.map Prod.fst, acc.map Prod.snd) } =
          ({ batch := some ((acc.map fun q => (u q.1, q.2)).map Prod.fst, (acc.map fun q => (u q.1, q.2)).map Prod.snd) } : Call P K) := by
        simp [convC, Function.comp_def]
      rw [← e2, e]
      rcases append cfg g { batch := some (acc.map Prod.fst, acc.map Prod.snd) } with ⟨g', _ | e⟩ <;> rfl

/-- The state of the loop in the other order. -/
def convSt (u : P → P) (v : PX → PX) (w : Θ → Θ) (s : Run.St (State P PX Θ K) P) : Run.St (State P PX Θ K) P := { s with gpr := conv u v w s.gpr, evals := s.evals.map u }

variable (truth truth' : P → Ext K) (ht : ∀ x, truth' (u x) = truth x) (acq acq' : ℕ → State P PX Θ K → List P) (kind : ℕ → FitArg)
  (cv dg cv' dg' : ℕ → State P PX Θ K → State P PX Θ K → Bool) (hacq : ∀ i g, acq' i (conv u v w g) = (acq i g).map u)
  (hconv : ∀ i g g', cv' i (conv u v w g) (conv u v w g') = cv i g g') (hdiag : ∀ i g g', dg' i (conv u v w g) (conv u v w g') = dg i g g')
include ht hacq hconv hdiag

theorem iterate_conv (o : Run.Opts) (mc : Bool) (s : Run.St (State P PX Θ K) P) :
    Run.iterate o mc (Shift.step cfg truth' acq' kind cv' dg' s.iter (conv u v w s.gpr)) (convSt u v w s) =
      (convSt u v w (Run.iterate o mc (Shift.step cfg truth acq kind cv dg s.iter s.gpr) s).1, (Run.iterate o mc (Shift.step cfg truth acq kind cv dg s.iter s.gpr) s).2) := by
  have e0 : ∀ g, (({ batch := some ((acq s.iter g).map u, ((acq s.iter g).map u).map truth'), fit := kind s.iter } : Call P K)) =
      convC u { batch := some (acq s.iter g, (acq s.iter g).map truth), fit := kind s.iter } := by
    intro g
    simp [convC, Function.comp_def, ht]
  have e1 : Shift.step cfg truth' acq' kind cv' dg' s.iter (conv u v w s.gpr) =
      { cands := (acq s.iter s.gpr).map u
        fit := fun g => match append cfg g (convC u { batch := some (acq s.iter s.gpr, (acq s.iter s.gpr).map truth), fit := kind s.iter }) with
          | (g', none) => .ok g'
          | (_, some e) => .error e
        conv := (Shift.step cfg truth acq kind cv dg s.iter s.gpr).conv
        diag := (Shift.step cfg truth acq kind cv dg s.iter s.gpr).diag } := by
    unfold Shift.step
    simp only [hacq, e0, C150_append cfg u v w hc, hconv, hdiag]
    rfl
  rw [e1]
  have e3 : Shift.step cfg truth acq kind cv dg s.iter s.gpr =
      { cands := acq s.iter s.gpr
        fit := fun g => match append cfg g { batch := some (acq s.iter s.gpr, (acq s.iter s.gpr).map truth), fit := kind s.iter } with
          | (g', none) => .ok g'
          | (_, some e) => .error e
        conv := (Shift.step cfg truth acq kind cv dg s.iter s.gpr).conv
        diag := (Shift.step cfg truth acq kind cv dg s.iter s.gpr).diag } := rfl
  rw [e3]
  generalize (Shift.step cfg truth acq kind cv dg s.iter s.gpr).conv = b1
  generalize (Shift.step cfg truth acq kind cv dg s.iter s.gpr).diag = b2
  unfold Run.iterate
  simp only [List.length_map]
  by_cases h1 : ((acq s.iter s.gpr).length : ℤ) < max 1 (o.nAcq / 2)
  · simp only [h1, if_true]
    show (if o.nResamples < ((s.resamples + 1 : ℕ) : ℤ) then _ else _) = _
    by_cases h2 : o.nResamples < ((s.resamples + 1 : ℕ) : ℤ)
    · simp only [h2, if_true]; rfl
    · simp only [h2, if_false]; rfl
  · simp only [h1, if_false]
    rw [show (convSt u v w s).gpr = conv u v w s.gpr from rfl, C150_append cfg u v w hc]
    rcases append cfg s.gpr { batch := some (acq s.iter s.gpr, (acq s.iter s.gpr).map truth), fit := kind s.iter } with ⟨g', _ | e⟩
    · dsimp only
      cases b1 <;> cases mc <;> simp [convSt]
    · simp [convSt]

theorem loop_conv (o : Run.Opts) (mc : Bool) (nF : State P PX Θ K → ℕ) (hF : ∀ g, nF (conv u v w g) = nF g) :
    ∀ (fuel : ℕ) (s : Run.St (State P PX Θ K) P),
      Run.loop o mc (nTotal cfg) nF (Shift.step cfg truth' acq' kind cv' dg') fuel (convSt u v w s) =
        (Run.loop o mc (nTotal cfg) nF (Shift.step cfg truth acq kind cv dg) fuel s).map fun r => (convSt u v w r.1, r.2)
  | 0, s => rfl
  | fuel + 1, s => by
    unfold Run.loop
    have hT : nTotal cfg (convSt u v w s).gpr = nTotal cfg s.gpr := by simp [nTotal, convSt, conv]
    have hF' : nF (convSt u v w s).gpr = nF s.gpr := hF s.gpr
    rw [hT, hF', show (convSt u v w s).hasConverged = s.hasConverged from rfl, show (convSt u v w s).iter = s.iter from rfl,
      show (convSt u v w s).gpr = conv u v w s.gpr from rfl, iterate_conv cfg u v w hc truth truth' ht acq acq' kind cv dg cv' dg' hacq hconv hdiag]
    split_ifs
    · rcases Run.iterate o mc (Shift.step cfg truth acq kind cv dg s.iter s.gpr) s with ⟨s', _ | _ | e⟩
      · exact loop_conv o mc nF hF fuel s'
      · rfl
      · rfl
    · rfl

/-- **C150** (partial: one process, and an engine and criteria that follow the change of order), run.py:804-1061: the whole loop evaluates the same points in the other order, and ends
in the same way after the same number of iterations. -/
theorem C150_loop_partial (o : Run.Opts) (mc : Bool) (fuel : ℕ) (g : State P PX Θ K) :
    Run.runLoop o mc (nTotal cfg) (fun g => g.yTrain.length) (Shift.step cfg truth' acq' kind cv' dg') fuel (conv u v w g) =
      (Run.runLoop o mc (nTotal cfg) (fun g => g.yTrain.length) (Shift.step cfg truth acq kind cv dg) fuel g).map
        fun r => ({ r.1 with gpr := conv u v w r.1.gpr, evals := r.1.evals.map u }, r.2) := by
  have h := loop_conv cfg u v w hc truth truth' ht acq acq' kind cv dg cv' dg' hacq hconv hdiag o mc (fun g => g.yTrain.length) (fun g => rfl) fuel (Run.St.start g)
  unfold Run.runLoop
  rw [show (Run.St.start (conv u v w g) : Run.St (State P PX Θ K) P) = convSt u v w (Run.St.start g) from rfl, h]
  rcases Run.loop o mc (nTotal cfg) (fun g => g.yTrain.length) (Shift.step cfg truth acq kind cv dg) fuel (Run.St.start g) with _ | ⟨s, _ | _ | e⟩
  · rfl
  · dsimp only [Option.map]
    rw [show (convSt u v w s).hasConverged = s.hasConverged from rfl]
    split_ifs <;> rfl
  · rfl
  · rfl

end

/-! ## Preprocessor of the points, trust region, mean and covariance -/

section
variable {d : ℕ} (σ : Equiv.Perm (Fin d))

/-- The parameters in the other order. -/
def re {A : Type*} (x : Fin d → A) : Fin d → A := fun i => x (σ i)

def reN (B : Pre.NormBounds d K) : Pre.NormBounds d K := ⟨re σ B.lo, re σ B.hi⟩

/-- **C150**, preprocessing.py:367-411. -/
theorem C150_bounds (B : Pre.NormBounds d K) (x z : Fin d → K) :
    (reN σ B).transform (re σ x) = re σ (B.transform x) ∧ (reN σ B).inverse (re σ z) = re σ (B.inverse z) := ⟨rfl, rfl⟩

theorem shrink_re (f : K) (B : Fin d → K × K) (use : List (Fin d → K)) :
    Trust.shrink f (re σ B) (use.map (re σ)) = (Trust.shrink f B use).map (re σ) := by
  unfold Trust.shrink
  simp only [List.map_eq_nil_iff]
  split_ifs with h
  · rfl
  · simp only [Except.map, Except.ok.injEq]
    funext j
    have : (use.map (re σ)).map (· j) = use.map (· (σ j)) := by simp [Function.comp_def, re]
    rw [this]
    rfl

/-- **C150**, gpr.py:554-575: the trust region. -/
theorem C150_trust (delta : K → K) (B : Fin d → K × K) (factor nstd : Option K) (tr : List ((Fin d → K) × K))
    (old : Option (Fin d → K × K)) (fuel : ℕ) :
    Trust.updateTrust delta (re σ B) factor nstd (tr.map fun q => (re σ q.1, q.2)) (old.map (re σ)) fuel =
      (Trust.updateTrust delta B factor nstd tr old fuel).map fun r => r.map fun o => o.map (re σ) := by
  unfold Trust.updateTrust
  cases factor with
  | none => rfl
  | some f =>
    have : Trust.used delta nstd (tr.map fun q => (re σ q.1, q.2)) fuel = (Trust.used delta nstd tr fuel).map (List.map fun q => (re σ q.1, q.2)) := by
      unfold Trust.used
      cases nstd with
      | none => rfl
      | some s => exact Units.trustLoop_aff delta (re σ) tr fuel s []
    dsimp only
    rw [this]
    cases Trust.used delta nstd tr fuel with
    | none => rfl
    | some use =>
      have e : (use.map fun q => (re σ q.1, q.2)).map Prod.fst = (use.map Prod.fst).map (re σ) := by simp [Function.comp_def]
      simp only [Option.map_some, e, shrink_re σ f]
      cases Trust.shrink f B (use.map Prod.fst) <;> rfl

/-- Mean and covariance in the other order. -/
def reM (m : Cov.MeanCov d K) : Cov.MeanCov d K := ⟨re σ m.mean, ⟨m.cov.ndim, fun i j => m.cov.val (σ i) (σ j)⟩⟩

theorem wmean_re (p : List (K × (Fin d → K))) (i : Fin d) : Cov.wmean (p.map fun q => (q.1, re σ q.2)) i = Cov.wmean p (σ i) := by
  unfold Cov.wmean Cov.wsum
  simp [Function.comp_def, re]

theorem scatter_re (p : List (K × (Fin d → K))) (i j : Fin d) : Cov.scatter (p.map fun q => (q.1, re σ q.2)) i j = Cov.scatter p (σ i) (σ j) := by
  unfold Cov.scatter
  simp only [wmean_re, List.map_map, Function.comp_def]
  rfl

theorem zip_re {W : Type*} (w : List W) (X : List (Fin d → K)) : w.zip (X.map (re σ)) = (w.zip X).map fun q => (q.1, re σ q.2) := by
  rw [List.zip_map_right]; rfl

theorem average_re (X : List (Fin d → K)) (w : Option (List K)) : Cov.average (X.map (re σ)) w = (Cov.average X w).map (re σ) := by
  cases w with
  | none =>
    simp only [Cov.average, List.map_map, List.length_map, Except.map, Function.comp_def]
    rfl
  | some w =>
    simp only [Cov.average, List.length_map, zip_re, wmean_re]
    split_ifs <;> rfl

theorem covOf_re (p : List (K × (Fin d → K))) (fact : K) :
    Cov.covOf (p.map fun q => (q.1, re σ q.2)) fact = ⟨(Cov.covOf p fact).ndim, fun i j => (Cov.covOf p fact).val (σ i) (σ j)⟩ := by
  simp only [Cov.covOf, scatter_re]

theorem npCov_re (X : List (Fin d → K)) (ddof : ℕ) (w : Option (List K)) :
    Cov.npCov (X.map (re σ)) ddof w = (Cov.npCov X ddof w).map fun c => ⟨c.ndim, fun i j => c.val (σ i) (σ j)⟩ := by
  cases w with
  | none =>
    have : (X.map (re σ)).map (fun x => ((1 : K), x)) = (X.map fun x => ((1 : K), x)).map fun q => (q.1, re σ q.2) := by simp [Function.comp_def]
    simp only [Cov.npCov, this, covOf_re, List.length_map, Except.map]
  | some w =>
    simp only [Cov.npCov, List.length_map, zip_re, covOf_re]
    split_ifs <;> rfl

/-- **C150**, tools.py:421-428: mean and covariance of a sample. -/
theorem C150_samples (X : List (Fin d → K)) (w : Option (List K)) : Cov.fromSamples (X.map (re σ)) w = (Cov.fromSamples X w).map (reM σ) := by
  unfold Cov.fromSamples
  rw [average_re, npCov_re]
  cases Cov.average X w with
  | error e => rfl
  | ok m => cases Cov.npCov X 1 w <;> rfl

theorem fromWeights_re (X : List (Fin d → K)) (w : List (Ext K)) : Cov.fromWeights (X.map (re σ)) w = (Cov.fromWeights X w).map (reM σ) := by
  unfold Cov.fromWeights
  cases Cov.finites w with
  | none => rfl
  | some w =>
    simp only [average_re, npCov_re]
    cases Cov.average X (some w) with
    | error e => rfl
    | ok m => cases Cov.npCov X 0 (some w) <;> rfl

/-- **C150**, tools.py:431-440: mean and covariance of the training set. -/
theorem C150_evals (ex : K → K) (X : List (Fin d → K)) (logp : List (Ext K)) :
    Cov.fromEvals ex (X.map (re σ)) logp = (Cov.fromEvals ex X logp).map (reM σ) := by
  unfold Cov.fromEvals
  cases Ext.pyMax logp with
  | none => rfl
  | some m =>
    simp only [Cov.removeZero, Cov.deleteAll, List.length_map]
    split_ifs with h
    · rfl
    · have : ∀ w : List (Ext K), Cov.deleteZero w (X.map (re σ)) = (Cov.deleteZero w X).map (re σ) := by
        intro w
        unfold Cov.deleteZero
        rw [zip_re]
        simp [List.filter_map, Function.comp_def]
      simp only [this]
      exact fromWeights_re σ _ _

end

/-! ## Kernels -/

section
open Kernels
variable {d : ℕ} (σ : Equiv.Perm (Fin d))

/-- The kernel with its length scales in the other order. -/
def reK : KExpr d → KExpr d
  | .rbf ls => .rbf (re σ ls)
  | .matern nu2 ls => .matern nu2 (re σ ls)
  | .rq ls alpha => .rq ls alpha
  | .expSine ls period => .expSine ls period
  | .const c => .const c
  | .white => .white
  | .dot s => .dot s
  | .sum a b => .sum (reK a) (reK b)
  | .prod a b => .prod (reK a) (reK b)
  | .pow a p => .pow (reK a) p

theorem sqDist_re (ls x y : Fin d → ℝ) : sqDist (re σ ls) (re σ x) (re σ y) = sqDist ls x y :=
  Equiv.sum_comp σ fun i => ((x i - y i) / ls i) ^ 2

theorem sqDist_re_const (c : ℝ) (x y : Fin d → ℝ) : sqDist (fun _ => c) (re σ x) (re σ y) = sqDist (fun _ => c) x y := sqDist_re σ (fun _ => c) x y

/-- **C150**: the values of a kernel, with the length scales in the same order as the parameters. -/
theorem C150_kernel (general : ℕ → ℝ → ℝ) (x y : Fin d → ℝ) : ∀ e : KExpr d, (reK σ e).eval general (re σ x) (re σ y) = e.eval general x y
  | .rbf ls => by simp only [reK, KExpr.eval, sqDist_re]
  | .matern nu2 ls => by simp only [reK, KExpr.eval, sqDist_re]
  | .rq ls alpha => by simp only [reK, KExpr.eval, sqDist_re_const]
  | .expSine ls period => by simp only [reK, KExpr.eval, sqDist_re_const]
  | .const c => rfl
  | .white => rfl
  | .dot s => by
    simp only [reK, KExpr.eval]
    rw [show (∑ i, re σ x i * re σ y i) = ∑ i, x i * y i from Equiv.sum_comp σ fun i => x i * y i]
  | .sum a b => by simp only [reK, KExpr.eval, C150_kernel general x y a, C150_kernel general x y b]
  | .prod a b => by simp only [reK, KExpr.eval, C150_kernel general x y a, C150_kernel general x y b]
  | .pow a p => by simp only [reK, KExpr.eval, C150_kernel general x y a]

theorem evalOk_re (k : ℕ) : ∀ e : KExpr d, (reK σ e).evalOk k = e.evalOk k
  | .rbf ls => rfl
  | .matern nu2 ls => rfl
  | .rq ls alpha => rfl
  | .expSine ls period => rfl
  | .const c => rfl
  | .white => rfl
  | .dot s => rfl
  | .sum a b => by simp only [reK, KExpr.evalOk, evalOk_re k a, evalOk_re k b]
  | .prod a b => by simp only [reK, KExpr.evalOk, evalOk_re k a, evalOk_re k b]
  | .pow a p => by simp only [reK, KExpr.evalOk, evalOk_re k a]

theorem evalE_re (general : ℕ → ℝ → ℝ) (e : KExpr d) (k : ℕ) (x y : Fin d → ℝ) : (reK σ e).evalE general k (re σ x) (re σ y) = e.evalE general k x y := by
  unfold KExpr.evalE
  rw [evalOk_re, C150_kernel]

theorem maternGrad_re (nu2 k : ℕ) (ls x y : Fin d → ℝ) : maternGrad nu2 k (re σ ls) (re σ x) (re σ y) = (maternGrad nu2 k ls x y).map (re σ) := by
  unfold maternGrad
  simp only [sqDist_re]
  split
  · split_ifs <;> rfl
  · rfl
  · rfl
  · rfl

/-- **C150**: the gradients of a kernel. -/
theorem C150_kernel_gradient (general : ℕ → ℝ → ℝ) (x y : Fin d → ℝ) : ∀ (e : KExpr d) (k : ℕ),
    (reK σ e).gradX general k (re σ x) (re σ y) = (e.gradX general k x y).map (re σ)
  | .rbf ls, k => by simp only [reK, KExpr.gradX, sqDist_re]; rfl
  | .matern nu2 ls, k => maternGrad_re σ nu2 k ls x y
  | .rq ls alpha, k => by simp only [reK, KExpr.gradX, sqDist_re_const]; rfl
  | .expSine ls period, k => by simp only [reK, KExpr.gradX, sqDist_re_const]; rfl
  | .const c, k => rfl
  | .white, k => rfl
  | .dot s, k => rfl
  | .sum a b, k => by
    simp only [reK, KExpr.gradX, C150_kernel_gradient general x y a k, C150_kernel_gradient general x y b k]
    cases a.gradX general k x y <;> cases b.gradX general k x y <;> rfl
  | .prod a b, k => by
    simp only [reK, KExpr.gradX, C150_kernel_gradient general x y a (k + 1), C150_kernel_gradient general x y b (k + 1), evalE_re]
    cases a.evalE general (k + 1) x y <;> cases b.gradX general (k + 1) x y <;> cases b.evalE general (k + 1) x y <;> cases a.gradX general (k + 1) x y <;> rfl
  | .pow a p, k => by
    simp only [reK, KExpr.gradX, C150_kernel_gradient general x y a k, evalE_re]
    cases a.evalE general (k + 1) x y <;> cases a.gradX general k x y <;> rfl

end

/-! ## Predictions -/

section
open Predict Kernels
variable {d n : ℕ} (σ : Equiv.Perm (Fin d))

/-- The surrogate in the other order. -/
noncomputable def convG (st : St d n) : St d n :=
  { st with
    prior := fun x => st.prior (re σ.symm x)
    M := { st.M with k := fun x y => st.M.k (re σ.symm x) (re σ.symm y), trX := fun x => re σ (st.M.trX (re σ.symm x)) }
    R := { st.R with X := fun i => re σ (st.R.X i) }
    svm := st.svm.map fun c => { c with decide := fun x => c.decide (re σ.symm x) }
    trust := st.trust.map (re σ) }

theorem re_symm {A : Type*} (x : Fin d → A) : re σ.symm (re σ x) = x := by
  funext i; simp [re]

theorem symm_re {A : Type*} (x : Fin d → A) : re σ (re σ.symm x) = x := by
  funext i; simp [re]

/-- The kernel and the preprocessor of `convG` are the kernel with its length scales in the other order, and `Normalize_bounds` with the bounds in the other order. -/
theorem C150_parts (general : ℕ → ℝ → ℝ) (e : KExpr d) (B : Pre.NormBounds d ℝ) :
    (fun x y => e.eval general (re σ.symm x) (re σ.symm y)) = (reK σ e).eval general ∧
    (fun x => re σ (B.transform (re σ.symm x))) = (reN σ B).transform := by
  constructor
  · funext x y
    rw [← C150_kernel σ general (re σ.symm x) (re σ.symm y) e, symm_re, symm_re]
  · funext x
    rw [← (C150_bounds σ B (re σ.symm x) 0).1, symm_re]

variable (st : St d n)

theorem trX_re (x : Fin d → ℝ) : (convG σ st).M.trX (re σ x) = re σ (st.M.trX x) := by simp [convG, re_symm]

theorem k_re (x y : Fin d → ℝ) : (convG σ st).M.k (re σ x) (re σ y) = st.M.k x y := by simp [convG, re_symm]

theorem kmat_re : ((convG σ st).M.data (convG σ st).R).kmat (convG σ st).M.k = (st.M.data st.R).kmat st.M.k := by
  unfold Gp.Data.kmat
  have : ∀ i, ((convG σ st).M.data (convG σ st).R).X i = re σ ((st.M.data st.R).X i) := fun i => trX_re σ st _
  simp only [this, k_re]
  rfl

theorem update_re : ((convG σ st).M.data (convG σ st).R).update (convG σ st).chol (convG σ st).M.k = (st.M.data st.R).update st.chol st.M.k := by
  unfold Gp.Data.update
  rw [kmat_re]
  rfl

theorem kTrans_re (x : Fin d → ℝ) : ((convG σ st).M.data (convG σ st).R).kTrans (convG σ st).M.k (re σ x) = (st.M.data st.R).kTrans st.M.k x := by
  funext i
  show (convG σ st).M.k (re σ x) ((convG σ st).M.trX (re σ (st.R.X i))) = _
  rw [trX_re, k_re]
  rfl

theorem mean_re (x : Fin d → ℝ) : (convG σ st).M.mean (convG σ st).chol (convG σ st).R (re σ x) = st.M.mean st.chol st.R x := by
  unfold Gp.Model.mean Gp.Data.mean
  rw [trX_re, kTrans_re, update_re]
  rfl

theorem dstd_re (x : Fin d → ℝ) : ((convG σ st).M.data (convG σ st).R).std (convG σ st).chol (convG σ st).M.k (re σ x) = (st.M.data st.R).std st.chol st.M.k x := by
  unfold Gp.Data.std Gp.Data.rawVar
  simp only [kTrans_re, update_re, k_re]

theorem std_re (x : Fin d → ℝ) : (convG σ st).M.std (convG σ st).chol (convG σ st).R (re σ x) = st.M.std st.chol st.R x := by
  unfold Gp.Model.std
  rw [trX_re, dstd_re]
  rfl

theorem all_ofFn_re (f : Fin d → Bool) : (List.ofFn (re σ f)).all id = (List.ofFn f).all id := by
  rw [Bool.eq_iff_iff]
  simp only [List.all_eq_true, List.mem_ofFn, id_eq, forall_exists_index, forall_apply_eq_imp_iff, re]
  exact ⟨fun h i => by simpa using h (σ.symm i), fun h i => h _⟩

theorem outside_re (B : Fin d → ℝ × ℝ) (x : Fin d → ℝ) : outside (re σ B) (re σ x) = outside B x := by
  unfold outside Tools.isInBounds
  rw [Units.zipWith_ofFn, Units.zipWith_ofFn]
  congr 1
  exact all_ofFn_re σ fun j => (Ext.fin (x j)).ge (Ext.fin (B j).1, Ext.fin (B j).2).1 && (Ext.fin (x j)).le (Ext.fin (B j).1, Ext.fin (B j).2).2

theorem means_re (X : List (Fin d → ℝ)) : (convG σ st).means (X.map (re σ)) = st.means X := by
  unfold St.means
  have e1 : ((X.map (re σ)).map fun x => (convG σ st).M.mean (convG σ st).chol (convG σ st).R x) = X.map fun x => st.M.mean st.chol st.R x := by
    simp [mean_re σ st, Function.comp_def]
  rw [e1]
  rfl

theorem trustMask_re (X : List (Fin d → ℝ)) (ign : Bool) (m : List (Ext ℝ)) : (convG σ st).trustMask (X.map (re σ)) ign m = st.trustMask X ign m := by
  unfold St.trustMask
  rw [show (convG σ st).trust = st.trust.map (re σ) from rfl, show (convG σ st).minf = st.minf from rfl]
  cases ign
  · cases st.trust with
    | none => rfl
    | some B => simp [Function.comp_def, outside_re]
  · rfl

theorem svm_re (c : Predict.Svm (Fin d → ℝ)) (X : List (Fin d → ℝ)) :
    Predict.Svm.predict { c with decide := fun x => c.decide (re σ.symm x) } (X.map (re σ)) = c.predict X := by
  simp [Svm.predict, Function.comp_def, re_symm]

/-- **C150**, gpr.py:1030-1230: `predict`, with the classifier, the trust region and the ceiling, before and after the fit. -/
theorem C150_predict (X : List (Fin d → ℝ)) (ign : Bool) : (convG σ st).predict (X.map (re σ)) ign = st.predict X ign := by
  have hs : ∀ Y : List (Fin d → ℝ), ((Y.map (re σ)).map fun x => (convG σ st).M.std (convG σ st).chol (convG σ st).R x) = Y.map fun x => st.M.std st.chol st.R x := by
    intro Y
    simp [std_re σ st, Function.comp_def]
  have hx : (X.map (re σ)).map (convG σ st).M.trX = (X.map st.M.trX).map (re σ) := by simp [trX_re, Function.comp_def]
  have hm : ∀ m : List Bool, maskGet m (X.map (re σ)) = (maskGet m X).map (re σ) := fun m => Shift.maskGet_map _ _ _
  have hk : ∀ {A : Type} (y : A), ((X.map (re σ)).map fun _ => y) = X.map fun _ => y := fun y => by simp [Function.comp_def]
  have hp : ((X.map (re σ)).map fun x => Real.sqrt ((convG σ st).prior x)) = X.map fun x => Real.sqrt (st.prior x) := by
    simp [convG, Function.comp_def, re_symm]
  unfold St.predict
  simp only [trustMask_re σ st, means_re σ st, hs, hx, hm, hk, hp, show (convG σ st).fitted = st.fitted from rfl,
    show (convG σ st).svm = st.svm.map fun c => { c with decide := fun x => c.decide (re σ.symm x) } from rfl, show (convG σ st).minf = st.minf from rfl]
  cases st.svm with
  | none => rfl
  | some c => simp only [Option.map_some, svm_re]

/-- **C150**, gpr.py:1302-1352: `predict_std`. -/
theorem C150_std (X : List (Fin d → ℝ)) : (convG σ st).predictStd (X.map (re σ)) = st.predictStd X := by
  have hs : ∀ Y : List (Fin d → ℝ), ((Y.map (re σ)).map fun x => (convG σ st).M.std (convG σ st).chol (convG σ st).R x) = Y.map fun x => st.M.std st.chol st.R x := by
    intro Y
    simp [std_re σ st, Function.comp_def]
  have hx : (X.map (re σ)).map (convG σ st).M.trX = (X.map st.M.trX).map (re σ) := by simp [trX_re, Function.comp_def]
  have hm : ∀ m : List Bool, maskGet m (X.map (re σ)) = (maskGet m X).map (re σ) := fun m => Shift.maskGet_map _ _ _
  have hk : ∀ {A : Type} (y : A), ((X.map (re σ)).map fun _ => y) = X.map fun _ => y := fun y => by simp [Function.comp_def]
  have hp : ((X.map (re σ)).map fun x => Real.sqrt ((convG σ st).prior x)) = X.map fun x => Real.sqrt (st.prior x) := by
    simp [convG, Function.comp_def, re_symm]
  unfold St.predictStd
  simp only [hs, hx, hm, hk, hp, show (convG σ st).fitted = st.fitted from rfl,
    show (convG σ st).svm = st.svm.map fun c => { c with decide := fun x => c.decide (re σ.symm x) } from rfl]
  cases st.svm with
  | none => rfl
  | some c => simp only [Option.map_some, svm_re]

def isErr {E A : Type*} : Except E A → Bool
  | .error _ => true
  | .ok _ => false

def okOr {E : Type*} : Except E (Fin d → ℝ) → Fin d → ℝ
  | .ok v => v
  | .error _ => 0

/-- The part of `predictGrad` after the classifier. -/
noncomputable def gpGrad (st : St d n) (G : Fin n → Except KErr (Fin d → ℝ)) (x : Fin d → ℝ) : Except Predict.Err ((Fin d → Ext ℝ) × (Fin d → ℝ)) :=
  match (List.finRange n).find? fun i => isErr (G i) with
  | some i => match G i with
    | .error err => .error (.kernel err)
    | .ok _ => .error .valueError
  | none => .ok (fun j => .fin (meanGrad st.chol st.M.k st.M.s (st.M.data st.R) (fun i => okOr (G i)) j),
      stdGrad st.chol st.M.k st.M.s (st.M.data st.R) (fun i => okOr (G i)) x)

theorem predictGrad_eq (general : ℕ → ℝ → ℝ) (e : KExpr d) (x : Fin d → ℝ) : st.predictGrad general e x =
    match st.svm with
    | none => gpGrad st (fun i => e.gradX general 1 (st.M.trX x) ((st.M.data st.R).X i)) (st.M.trX x)
    | some c => match c.predict [st.M.trX x] with
      | .error e => .error e
      | .ok finite => if finite.all not then .ok (fun _ => .posInf, fun _ => 0)
        else gpGrad st (fun i => e.gradX general 1 (st.M.trX x) ((st.M.data st.R).X i)) (st.M.trX x) := by
  have key : (match (List.finRange n).find? fun i => match e.gradX general 1 (st.M.trX x) ((st.M.data st.R).X i) with | .error _ => true | .ok _ => false with
    | some i => match e.gradX general 1 (st.M.trX x) ((st.M.data st.R).X i) with
      | .error err => .error (.kernel err)
      | .ok _ => .error .valueError
    | none =>
      let g := fun i => match e.gradX general 1 (st.M.trX x) ((st.M.data st.R).X i) with | .ok v => v | .error _ => 0
      (.ok (fun j => .fin (meanGrad st.chol st.M.k st.M.s (st.M.data st.R) g j), stdGrad st.chol st.M.k st.M.s (st.M.data st.R) g (st.M.trX x)) :
        Except Predict.Err ((Fin d → Ext ℝ) × (Fin d → ℝ)))) = gpGrad st (fun i => e.gradX general 1 (st.M.trX x) ((st.M.data st.R).X i)) (st.M.trX x) := by
    have h1 : (fun i => match e.gradX general 1 (st.M.trX x) ((st.M.data st.R).X i) with | .error _ => true | .ok _ => false) =
        fun i => isErr (e.gradX general 1 (st.M.trX x) ((st.M.data st.R).X i)) := by
      funext i; cases e.gradX general 1 (st.M.trX x) ((st.M.data st.R).X i) <;> rfl
    have h2 : (fun i => match e.gradX general 1 (st.M.trX x) ((st.M.data st.R).X i) with | .ok v => v | .error _ => (0 : Fin d → ℝ)) =
        fun i => okOr (e.gradX general 1 (st.M.trX x) ((st.M.data st.R).X i)) := by
      funext i; cases e.gradX general 1 (st.M.trX x) ((st.M.data st.R).X i) <;> rfl
    unfold gpGrad
    rw [h1]
    dsimp only
    rw [h2]
  unfold St.predictGrad
  cases st.svm with
  | none => exact key
  | some c =>
    dsimp only
    cases c.predict [st.M.trX x] with
    | error e => rfl
    | ok finite => 
      dsimp only
      split_ifs
      · rfl
      · exact key

/-- **C150**, gpr.py:1231-1267: the gradients come in the other order. -/
theorem C150_gradient (general : ℕ → ℝ → ℝ) (e : KExpr d) (x : Fin d → ℝ) :
    (convG σ st).predictGrad general (reK σ e) (re σ x) = (st.predictGrad general e x).map fun g => (re σ g.1, re σ g.2) := by
  have hX : ∀ i, ((convG σ st).M.data (convG σ st).R).X i = re σ ((st.M.data st.R).X i) := fun i => trX_re σ st _
  have hg : ∀ i, (reK σ e).gradX general 1 (re σ (st.M.trX x)) (re σ ((st.M.data st.R).X i)) = (e.gradX general 1 (st.M.trX x) ((st.M.data st.R).X i)).map (re σ) :=
    fun i => C150_kernel_gradient σ general _ _ e 1
  have hm : ∀ g : Fin n → Fin d → ℝ, meanGrad (convG σ st).chol (convG σ st).M.k (convG σ st).M.s ((convG σ st).M.data (convG σ st).R) (fun i => re σ (g i)) =
      re σ (meanGrad st.chol st.M.k st.M.s (st.M.data st.R) g) := by
    intro g
    unfold meanGrad
    rw [update_re]
    rfl
  have hst : ∀ g : Fin n → Fin d → ℝ, stdGrad (convG σ st).chol (convG σ st).M.k (convG σ st).M.s ((convG σ st).M.data (convG σ st).R) (fun i => re σ (g i)) (re σ (st.M.trX x)) =
      re σ (stdGrad st.chol st.M.k st.M.s (st.M.data st.R) g (st.M.trX x)) := by
    intro g
    unfold stdGrad
    rw [update_re, kTrans_re, dstd_re]
    rfl
  rw [predictGrad_eq, predictGrad_eq]
  simp only [trX_re, hX, hg]
  have hgp : ∀ G : Fin n → Except KErr (Fin d → ℝ), gpGrad (convG σ st) (fun i => (G i).map (re σ)) (re σ (st.M.trX x)) =
      (gpGrad st G (st.M.trX x)).map fun g => (re σ g.1, re σ g.2) := by
    intro G
    unfold gpGrad
    have h1 : ∀ i, isErr ((G i).map (re σ)) = isErr (G i) := by intro i; cases G i <;> rfl
    have h2 : (fun i => okOr ((G i).map (re σ))) = fun i => re σ (okOr (G i)) := by funext i; cases G i <;> rfl
    simp only [h1, h2, hm, hst]
    cases (List.finRange n).find? fun i => isErr (G i) with
    | none => rfl
    | some i => cases hG : G i <;> simp only [hG, Except.map]
  rw [show (convG σ st).svm = st.svm.map fun c => { c with decide := fun x => c.decide (re σ.symm x) } from rfl]
  cases st.svm with
  | none => exact hgp _
  | some c =>
    have := svm_re σ c [st.M.trX x]
    simp only [List.map_cons, List.map_nil] at this
    simp only [Option.map_some, this]
    cases c.predict [st.M.trX x] with
    | error e => rfl
    | ok finite =>
      dsimp only
      split_ifs
      · rfl
      · exact hgp _

end

section
open Predict AcqPts
variable {d n : ℕ} (σ : Equiv.Perm (Fin d)) (st : St d n)

/-- **C150**, acquisition_functions.py: all the acquisition functions, sums, products and powers of them. -/
theorem C150_acquisition (cdf pdf : ℝ → ℝ) (pw : ℝ → Ext ℝ → Ext ℝ) (noise : Acq.Noise) (yMax : ℝ)
    (ok ok' : (Fin d → ℝ) → Bool) (hok : ∀ x, ok' (re σ x) = ok x) (X : List (Fin d → ℝ)) (f : Af) :
    f.eval cdf pdf pw ⟨convG σ st, noise, yMax, ok'⟩ (X.map (re σ)) = f.eval cdf pdf pw ⟨st, noise, yMax, ok⟩ X := by
  have hno : noGrad ⟨convG σ st, noise, yMax, ok'⟩ (X.map (re σ)) = noGrad ⟨st, noise, yMax, ok⟩ X := by
    unfold noGrad
    dsimp only
    rw [C150_predict σ st]
  have hwi : withGrad ⟨convG σ st, noise, yMax, ok'⟩ (X.map (re σ)) = withGrad ⟨st, noise, yMax, ok⟩ X := by
    unfold withGrad
    dsimp only
    rw [C150_predict σ st, List.length_map, List.all_map]
    simp only [Function.comp_def, hok]
  induction f with
  | leaf l => cases l <;> simp [Af.eval, Leaf.eval, hno, hwi, Function.comp_def]
  | sum f g ihf ihg => simp only [Af.eval, ihf, ihg]
  | prod f g ihf ihg => simp only [Af.eval, ihf, ihg]
  | pow f p ihf => simp only [Af.eval, ihf]

end

/-! ## What the optimiser of the hyperparameters sees -/

section
open Kernels
variable {d : ℕ} (σ : Equiv.Perm (Fin d))

/-- The kernel matrix, gpr.py:1015, as a list of rows. -/
noncomputable def kernelMatrix (general : ℕ → ℝ → ℝ) (e : KExpr d) (xs : List (Fin d → ℝ)) : List (List ℝ) := xs.map fun x => xs.map fun y => e.eval general x y

/-- **C150**: the kernel matrix is the same, for every kernel and all the points. -/
theorem C150_matrix (general : ℕ → ℝ → ℝ) (e : KExpr d) (xs : List (Fin d → ℝ)) : kernelMatrix general (reK σ e) (xs.map (re σ)) = kernelMatrix general e xs := by
  simp [kernelMatrix, Function.comp_def, C150_kernel]

/-- **C150**: what `C150_append` needs holds with `Normalize_bounds`, a preprocessor of the targets that does not look at the points, a Cholesky decomposition and a log-marginal
likelihood computed from the kernel matrix, and an optimiser that finds the same point if its objective is the same up to the order of its arguments. -/
theorem C150_preprocessors {Θ : Type*} (cfg : Cfg (Fin d → ℝ) (Pre.NormBounds d ℝ) Θ ℝ) (w : Θ → Θ) (general : ℕ → ℝ → ℝ) (kern : Θ → KExpr d) (hw : ∀ th, kern (w th) = reK σ (kern th))
    (hX : cfg.fitX = fun B _ _ => B) (hT : cfg.trX = fun B x i => (x i - B.lo i) / (B.hi i - B.lo i))
    (fy : PreY ℝ → List (Ext ℝ) → Except Gpr.Err (PreY ℝ)) (hY : cfg.fitY = fun q _ ys => fy q ys)
    (ok : List (List ℝ) → List (Ext ℝ) → Bool) (hok : cfg.cholOk = fun xs nv th => ok (kernelMatrix general (kern th) xs) nv)
    (opt : (Θ → List (List ℝ)) → List (Ext ℝ) → List (Ext ℝ) → Option Θ → ℕ → Θ)
    (hopt : cfg.optimise = fun xs ys nv th n => opt (fun t => kernelMatrix general (kern t) xs) ys nv th n)
    (hnat : ∀ obj obj' ys nv th n, (∀ t, obj' (w t) = obj t) → opt obj' ys nv (th.map w) n = w (opt obj ys nv th n)) :
    Equivariant cfg (re σ) (reN σ) w := by
  refine ⟨fun px xs ys => by rw [hX], fun B x => by rw [hT]; rfl, fun q xs ys => by rw [hY], fun xs nv th => ?_, fun xs ys nv th n => ?_⟩
  · rw [hok]
    simp only [hw, C150_matrix]
  · rw [hopt]
    exact hnat _ _ ys nv th n fun t => by simp only [hw, C150_matrix]

end

/-! ## Divergence, alignment, distance -/

section
open Matrix Stat
variable {d : ℕ} (σ : Equiv.Perm (Fin d))

/-- **C150**, tools.py:20-36: the divergence of two normal distributions, also if the matrices are not positive definite. -/
theorem C150_kl (m0 m1 : Fin d → ℝ) (S0 S1 : Matrix (Fin d) (Fin d) ℝ) :
    klNorm (re σ m0) (S0.submatrix σ σ) (re σ m1) (S1.submatrix σ σ) = klNorm m0 S0 m1 S1 := by
  have hdot : ∀ x y : Fin d → ℝ, re σ x ⬝ᵥ re σ y = x ⬝ᵥ y := fun x y => Equiv.sum_comp σ fun i => x i * y i
  have hmv : ∀ (A : Matrix (Fin d) (Fin d) ℝ) (x : Fin d → ℝ), A.submatrix σ σ *ᵥ re σ x = re σ (A *ᵥ x) := by
    intro A x
    funext i
    exact Equiv.sum_comp σ fun j => A (σ i) j * x j
  have hsub : re σ m1 - re σ m0 = re σ (m1 - m0) := rfl
  have hinv : (S1.submatrix σ σ)⁻¹ = S1⁻¹.submatrix σ σ := Matrix.inv_submatrix_equiv S1 σ σ
  have htr : ∀ A : Matrix (Fin d) (Fin d) ℝ, (A.submatrix σ σ).trace = A.trace := fun A => Equiv.sum_comp σ fun i => A i i
  unfold klNorm
  rw [hinv, hsub, hmv, hdot, Matrix.submatrix_mul_equiv, htr, Matrix.det_submatrix_equiv_self, Matrix.det_submatrix_equiv_self]

/-- **C150**, convergence.py:703-707. -/
theorem C150_alignment (m1 m2 : Fin d → ℝ) (S : Matrix (Fin d) (Fin d) ℝ) : Align.align (re σ m1) (re σ m2) (S.submatrix σ σ) = Align.align m1 m2 S := by
  have hdot : ∀ x y : Fin d → ℝ, re σ x ⬝ᵥ re σ y = x ⬝ᵥ y := fun x y => Equiv.sum_comp σ fun i => x i * y i
  have hmv : ∀ (A : Matrix (Fin d) (Fin d) ℝ) (x : Fin d → ℝ), A.submatrix σ σ *ᵥ re σ x = re σ (A *ᵥ x) := by
    intro A x
    funext i
    exact Equiv.sum_comp σ fun j => A (σ i) j * x j
  have hsub : re σ m1 - re σ m2 = re σ (m1 - m2) := rfl
  unfold Align.align
  rw [Matrix.inv_submatrix_equiv, hsub, hmv, hdot, Matrix.det_submatrix_equiv_self]

/-- **C150** is false of `gaussian_distance` (tools.py:76-97): the distance of the same point from the same normal distribution depends on the order of the parameters. -/
theorem C150_distance_counterexample (chol : Matrix (Fin 2) (Fin 2) ℝ → Matrix (Fin 2) (Fin 2) ℝ) (hchol : ∀ S, S.PosDef → IsChol S (chol S)) :
    exS.PosDef ∧ exS.submatrix (Equiv.swap 0 1) (Equiv.swap 0 1) = exS ∧ gaussianDistance chol ![1, 0] 0 exS ^ 2 = 34 / 25 ∧
    gaussianDistance chol (re (Equiv.swap 0 1) ![1, 0]) (re (Equiv.swap 0 1) 0) (exS.submatrix (Equiv.swap 0 1) (Equiv.swap 0 1)) ^ 2 = 16 / 25 := by
  obtain ⟨h1, h2, -⟩ := C61_correlated_counterexample chol hchol
  have hs : exS.submatrix (Equiv.swap 0 1) (Equiv.swap 0 1) = exS := by
    ext i j
    fin_cases i <;> fin_cases j <;> simp [exS]
  have hp : re (Equiv.swap 0 1) (![1, 0] : Fin 2 → ℝ) = ![0, 1] := by
    funext i
    fin_cases i <;> simp [re]
  have hz : re (Equiv.swap 0 1) (0 : Fin 2 → ℝ) = 0 := rfl
  refine ⟨h1, hs, h2, ?_⟩
  rw [hs, hp, hz]
  have hsd : stdDiag exS = 1 := by
    unfold stdDiag
    rw [← diagonal_one]
    congr 1
    funext i
    fin_cases i <;> simp [exS]
  have hcorr : corrmat exS = exS := by unfold corrmat; rw [hsd]; simp
  have hc : chol exS = exL := (hchol _ exS_posDef).unique exL_chol
  unfold gaussianDistance
  dsimp only
  rw [hcorr, hc, hsd, Real.sq_sqrt (Finset.sum_nonneg fun i _ => sq_nonneg _)]
  simp [exL, Fin.sum_univ_two, mulVec, dotProduct]
  norm_num

end

/-! ## Each theorem applied to concrete data -/

section

/-- The two parameters swapped. -/
abbrev sw : Equiv.Perm (Fin 2) := Equiv.swap 0 1

/-- Two parameters with length scales; the optimiser returns the sums of the coordinates. -/
def exCfg : Cfg (Fin 2 → ℚ) (Pre.NormBounds 2 ℚ) (Fin 2 → ℚ) ℚ :=
  { useSvm := true, keepMin := 1, thr := .fin 20, eps := 1 / 1000000, fitX := fun B _ _ => B, trX := fun B x i => (x i - B.lo i) / (B.hi i - B.lo i),
    fitY := fun _ _ ys => Pre.chi2Fit 2 ys, nRestarts := 1,
    canOptimise := true, optimise := fun xs _ _ _ _ i => (xs.map (· i)).sum, cholOk := fun _ _ th => decide (th 0 ≠ th 1) }

theorem exCfg_ok : Equivariant exCfg (re sw) (reN sw) (re sw) := by
  refine ⟨fun _ _ _ => rfl, fun _ _ => rfl, fun _ _ _ => rfl, fun xs nv th => ?_, fun xs ys nv th n => ?_⟩
  · show decide (re sw th 0 ≠ re sw th 1) = decide (th 0 ≠ th 1)
    simp only [re, sw, Equiv.swap_apply_left, Equiv.swap_apply_right, decide_eq_decide]
    exact ⟨Ne.symm, Ne.symm⟩
  · funext i
    show ((xs.map (re sw)).map (· i)).sum = (xs.map (· (sw i))).sum
    rw [List.map_map]
    rfl

/-- Two batches; the last point is classified as infinite. -/
def exCalls : List (Call (Fin 2 → ℚ) ℚ) := [{ batch := some ([![1, 10], ![2, 30]], [.fin (-1), .fin (-3)]) }, { batch := some ([![3, 20], ![4, 0]], [.fin (-2), .fin (-50)]), fit := .no }]

def exInit : State (Fin 2 → ℚ) (Pre.NormBounds 2 ℚ) (Fin 2 → ℚ) ℚ := State.init ⟨![0, 0], ![4, 40]⟩ .unfitted (.scalar (1 / 10))

def exShow (st : State (Fin 2 → ℚ) (Pre.NormBounds 2 ℚ) (Fin 2 → ℚ) ℚ) := (st.xTrain.map fun x => (x 0, x 1), st.xTrain'.map fun x => (x 0, x 1), st.theta.map fun x => (x 0, x 1))

example : (run exCfg exInit exCalls).map exShow =
    some ([(1, 10), (2, 30), (3, 20)], [(1 / 4, 1 / 4), (1 / 2, 3 / 4), (3 / 4, 1 / 2)], some (3 / 4, 1)) := by decide +kernel

example : (run exCfg (conv (re sw) (reN sw) (re sw) exInit) (exCalls.map (convC (re sw)))).map exShow =
    some ([(10, 1), (30, 2), (20, 3)], [(1 / 4, 1 / 4), (3 / 4, 1 / 2), (1 / 2, 3 / 4)], some (1, 3 / 4)) := by decide +kernel

example (q : Call (Fin 2 → ℚ) ℚ) (st : State (Fin 2 → ℚ) (Pre.NormBounds 2 ℚ) (Fin 2 → ℚ) ℚ) :
    append exCfg (conv (re sw) (reN sw) (re sw) st) (convC (re sw) q) = (conv (re sw) (reN sw) (re sw) (append exCfg st q).1, (append exCfg st q).2) :=
  C150_append exCfg _ _ _ exCfg_ok st q

example : run exCfg (conv (re sw) (reN sw) (re sw) exInit) (exCalls.map (convC (re sw))) = (run exCfg exInit exCalls).map (conv (re sw) (reN sw) (re sw)) :=
  C150_history exCfg _ _ _ exCfg_ok _ _

def exDraw : ℕ → ℕ → ℕ → (Fin 2 → ℚ) × Ext ℚ := fun i r j => (![(i + 10 * r + j : ℕ), 2 * (i + r : ℕ)], .fin (-((i + 10 * r + j : ℕ) * (i + 10 * r + j : ℕ))))

example : Run.initialTraining exCfg 2 4 20 1 (fun i r j => (re sw (exDraw i r j).1, (exDraw i r j).2)) (conv (re sw) (reN sw) (re sw) exInit) =
    (Run.initialTraining exCfg 2 4 20 1 exDraw exInit).map fun r => (r.1.map fun q => (re sw q.1, q.2), conv (re sw) (reN sw) (re sw) r.2) :=
  C150_initial exCfg _ _ _ exCfg_ok 2 4 20 1 exDraw exInit

/-- The acquisition proposes the mean of the first two points. -/
def exAcq (g : State (Fin 2 → ℚ) (Pre.NormBounds 2 ℚ) (Fin 2 → ℚ) ℚ) : List (Fin 2 → ℚ) := match g.xAll with
  | x :: y :: _ => [fun i => (x i + y i) / 2]
  | _ => []

theorem exAcq_ok (g : State (Fin 2 → ℚ) (Pre.NormBounds 2 ℚ) (Fin 2 → ℚ) ℚ) : exAcq (conv (re sw) (reN sw) (re sw) g) = (exAcq g).map (re sw) := by
  unfold exAcq
  rw [show (conv (re sw) (reN sw) (re sw) g).xAll = g.xAll.map (re sw) from rfl]
  rcases g.xAll with _ | ⟨x, _ | ⟨y, l⟩⟩ <;> rfl

example (fuel : ℕ) (g : State (Fin 2 → ℚ) (Pre.NormBounds 2 ℚ) (Fin 2 → ℚ) ℚ) :
    Run.runLoop ⟨4, 20, 40, 40, 2, 2, 1, 2⟩ true (nTotal exCfg) (fun g => g.yTrain.length)
        (Shift.step exCfg (fun x => .fin (-(x 1) ^ 2)) (fun _ => exAcq) (fun i => if i % 2 = 0 then .no else .yes none)
          (fun _ g g' => decide (g'.yTrain.length = g.yTrain.length)) (fun _ _ _ => true)) fuel (conv (re sw) (reN sw) (re sw) g) =
      (Run.runLoop ⟨4, 20, 40, 40, 2, 2, 1, 2⟩ true (nTotal exCfg) (fun g => g.yTrain.length)
        (Shift.step exCfg (fun x => .fin (-(x 0) ^ 2)) (fun _ => exAcq) (fun i => if i % 2 = 0 then .no else .yes none)
          (fun _ g g' => decide (g'.yTrain.length = g.yTrain.length)) (fun _ _ _ => true)) fuel g).map
        fun r => ({ r.1 with gpr := conv (re sw) (reN sw) (re sw) r.1.gpr, evals := r.1.evals.map (re sw) }, r.2) :=
  C150_loop_partial exCfg _ _ _ exCfg_ok (fun x => .fin (-(x 0) ^ 2)) (fun x => .fin (-(x 1) ^ 2)) (fun x => by simp [re]) (fun _ => exAcq) (fun _ => exAcq) _ _ _ _ _
    (fun _ g => exAcq_ok g) (fun _ _ _ => rfl) (fun _ _ _ => rfl) _ true fuel g

example (x : Fin 2 → ℚ) : (reN sw ⟨![0, 3], ![1, 3]⟩).transform (re sw x) = re sw ((⟨![0, 3], ![1, 3]⟩ : Pre.NormBounds 2 ℚ).transform x) := (C150_bounds sw _ x x).1

/-- The trust region of three points, in both orders. -/
example : (Trust.updateTrust (fun x : ℚ => x) ![(0, 10), (0, 100)] (some 2) none [(![2, 20], -1), (![4, 90], -2), (![3, 30], -50)] none 10).map
    (fun r => r.map fun o => o.map fun b => (b 0, b 1)) = some (.ok (some ((1, 5), (0, 100)))) := by decide +kernel

example : (Trust.updateTrust (fun x : ℚ => x) (re sw ![(0, 10), (0, 100)]) (some 2) none
      ([(![2, 20], -1), (![4, 90], -2), (![3, 30], -50)].map fun q => (re sw q.1, q.2)) none 10).map
    (fun r => r.map fun o => o.map fun b => (b 0, b 1)) = some (.ok (some ((0, 100), (1, 5)))) := by
  have := C150_trust sw (fun x : ℚ => x) ![(0, 10), (0, 100)] (some 2) none [(![2, 20], -1), (![4, 90], -2), (![3, 30], -50)] none 10
  rw [show (Option.map (re sw) (none : Option (Fin 2 → ℚ × ℚ))) = none from rfl] at this
  rw [this]
  decide +kernel

example : (Cov.fromSamples (([![0, 1], ![2, 5], ![4, 3]] : List (Fin 2 → ℚ)).map (re sw)) (some [1, 2, 1])).map (fun m => (m.mean 0, m.mean 1, m.cov.val 0 0)) =
    (Cov.fromSamples ([![0, 1], ![2, 5], ![4, 3]] : List (Fin 2 → ℚ)) (some [1, 2, 1])).map (fun m => (m.mean 1, m.mean 0, m.cov.val 1 1)) := by
  rw [C150_samples sw]
  cases Cov.fromSamples ([![0, 1], ![2, 5], ![4, 3]] : List (Fin 2 → ℚ)) (some [1, 2, 1]) <;> rfl

example (ex : ℚ → ℚ) : Cov.fromEvals ex (([![0, 1], ![2, 5], ![4, 3]] : List (Fin 2 → ℚ)).map (re sw)) [.fin 0, .fin (-1), .negInf] =
    (Cov.fromEvals ex ([![0, 1], ![2, 5], ![4, 3]] : List (Fin 2 → ℚ)) [.fin 0, .fin (-1), .negInf]).map (reM sw) :=
  C150_evals sw ex _ _

end

section
open Predict Kernels AcqPts

/-- A kernel with different length scales. -/
noncomputable def exK : KExpr 2 := .prod (.const 3) (.sum (.rbf ![1, 2]) (.matern 3 ![1 / 2, 5]))

example (x y : Fin 2 → ℝ) : (KExpr.prod (.const 3) (.sum (.rbf (re sw ![1, 2])) (.matern 3 (re sw ![1 / 2, 5])))).eval (fun _ _ => 0) (re sw x) (re sw y) = exK.eval (fun _ _ => 0) x y :=
  C150_kernel sw _ x y exK

/-- If the length scales stay in the old order, the kernel is not the same. -/
example : (KExpr.rbf ![1, 2]).eval (fun _ _ => 0) (re sw ![2, 0]) (re sw ![0, 0]) ≠ (KExpr.rbf ![1, 2]).eval (fun _ _ => 0) ![2, 0] ![0, 0] := by
  simp [KExpr.eval, sqDist, re, Fin.sum_univ_two]
  norm_num

example (x y : Fin 2 → ℝ) : (reK sw exK).gradX (fun _ _ => 0) 1 (re sw x) (re sw y) = (exK.gradX (fun _ _ => 0) 1 x y).map (re sw) := C150_kernel_gradient sw _ x y exK 1

/-- A surrogate with this kernel and one training point. -/
noncomputable def exS2 : St 2 1 :=
  { fitted := true, prior := fun _ => 1, M := ⟨exK.eval fun _ _ => 0, fun x i => x i / ![4, 40] i, -3, 2⟩, chol := chol1, R := ⟨fun _ => ![1, 10], fun _ => -5, fun _ => 1 / 10⟩,
    svm := some ⟨true, false, true, fun x => decide (x 0 < 1)⟩, trust := some ![(0, 2), (5, 20)], clip := some (11 / 10), minf := .negInf }

example : (fun x y => exK.eval (fun _ _ => 0) (re sw.symm x) (re sw.symm y)) = (reK sw exK).eval fun _ _ => 0 := (C150_parts sw _ exK ⟨0, 1⟩).1

example (X : List (Fin 2 → ℝ)) : (convG sw exS2).predict (X.map (re sw)) false = exS2.predict X false := C150_predict sw exS2 X false

example (X : List (Fin 2 → ℝ)) : (convG sw exS2).predictStd (X.map (re sw)) = exS2.predictStd X := C150_std sw exS2 X

example (x : Fin 2 → ℝ) : (convG sw exS2).predictGrad (fun _ _ => 0) (reK sw exK) (re sw x) = (exS2.predictGrad (fun _ _ => 0) exK x).map fun g => (re sw g.1, re sw g.2) :=
  C150_gradient sw exS2 _ exK x

example (pw : ℝ → Ext ℝ → Ext ℝ) (X : List (Fin 2 → ℝ)) :
    (Af.sum (.leaf (.logExp 1 none)) (.leaf (.mu 1))).eval normCdf normPdf pw ⟨convG sw exS2, exG.noise, exG.yMax, fun _ => true⟩ (X.map (re sw)) =
      (Af.sum (.leaf (.logExp 1 none)) (.leaf (.mu 1))).eval normCdf normPdf pw ⟨exS2, exG.noise, exG.yMax, fun _ => true⟩ X :=
  C150_acquisition sw exS2 _ _ pw _ _ _ _ (fun _ => rfl) X _

example : kernelMatrix (fun _ _ => 0) (reK sw exK) [![10, 1], ![30, 2]] = kernelMatrix (fun _ _ => 0) exK [![1, 10], ![2, 30]] := by
  rw [← C150_matrix sw _ exK]
  congr 1
  simp only [List.map_cons, List.map_nil, List.cons.injEq, and_true]
  exact ⟨by funext i; fin_cases i <;> simp [re], by funext i; fin_cases i <;> simp [re]⟩

/-- A configuration as `C150_preprocessors` asks for, with an optimiser that leaves the hyperparameters as they are. -/
example : Equivariant (P := Fin 2 → ℝ) (PX := Pre.NormBounds 2 ℝ) (Θ := Fin 2 → ℝ) (K := ℝ)
    { useSvm := false, keepMin := 1, thr := .fin 20, eps := 1, fitX := fun B _ _ => B, trX := fun B x i => (x i - B.lo i) / (B.hi i - B.lo i),
      fitY := fun _ _ ys => Pre.chi2Fit 2 ys, nRestarts := 1, canOptimise := true, optimise := fun _ _ _ th _ => th.getD fun _ => 1,
      cholOk := fun xs _ th => decide (kernelMatrix (fun _ _ => 0) (.rbf th) xs ≠ []) } (re sw) (reN sw) (re sw) :=
  C150_preprocessors sw _ (re sw) (fun _ _ => 0) KExpr.rbf (fun _ => rfl) rfl rfl (fun _ ys => Pre.chi2Fit 2 ys) rfl (fun m _ => decide (m ≠ [])) rfl
    (fun _ _ _ th _ => th.getD fun _ => 1) rfl (fun obj obj' ys nv th n _ => by cases th <;> rfl)

end

section
open Matrix Stat

example : klNorm (re sw ![1, 2]) ((!![1, 2; 2, 9] : Matrix (Fin 2) (Fin 2) ℝ).submatrix sw sw) (re sw ![0, 0]) ((1 : Matrix (Fin 2) (Fin 2) ℝ).submatrix sw sw) =
    klNorm ![1, 2] !![1, 2; 2, 9] ![0, 0] 1 := C150_kl sw _ _ _ _

example : Align.align (re sw ![1, 2]) (re sw ![0, 0]) ((!![1, 2; 2, 9] : Matrix (Fin 2) (Fin 2) ℝ).submatrix sw sw) = Align.align ![1, 2] ![0, 0] !![1, 2; 2, 9] := C150_alignment sw _ _ _

/-- There is a function as `C150_distance_counterexample` asks for, at least at the matrix of the example. -/
example : IsChol exS exL := exL_chol

end

end GPry.Order
