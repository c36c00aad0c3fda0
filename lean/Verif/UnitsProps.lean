import Verif.ShiftPredProps
import Verif.ProposalProps

set_option linter.all false

/-!
# The units of the parameters: C144

A change of units is `x i ↦ a i * x i + b i` with `a i > 0`, applied to the points and to the bounds.
-/

namespace GPry.Units

open GPry Gpr

variable {K : Type*} [Field K] [LinearOrder K] [IsStrictOrderedRing K] {P PX Θ : Type*}

/-! ## The regressor -/

/-- The regressor in other units: `u` for the points, `v` for the preprocessor of the points. -/
def conv (u : P → P) (v : PX → PX) (st : State P PX Θ K) : State P PX Θ K :=
  { st with xAll := st.xAll.map u, xTrain := st.xTrain.map u, px := v st.px }

def convC (u : P → P) (q : Call P K) : Call P K := { q with batch := q.batch.map fun b => (b.1.map u, b.2) }

/-- What is needed of the preprocessors: that of the points undoes the change of units, that of the targets does not look at the points. -/
structure Equivariant (cfg : Cfg P PX Θ K) (u : P → P) (v : PX → PX) : Prop where
  fitX : ∀ px xs ys, cfg.fitX (v px) (xs.map u) ys = v (cfg.fitX px xs ys)
  trX : ∀ px x, cfg.trX (v px) (u x) = cfg.trX px x
  fitY : ∀ q xs ys, cfg.fitY q (xs.map u) ys = cfg.fitY q xs ys

def convR {E : Type*} (u : P → P) (v : PX → PX) (r : State P PX Θ K × E) : State P PX Θ K × E := (conv u v r.1, r.2)

variable (cfg : Cfg P PX Θ K) (u : P → P) (v : PX → PX)

theorem updateModel_conv (st : State P PX Θ K) : updateModel cfg (conv u v st) = convR u v (updateModel cfg st) := by
  show (if st.newly < 1 then (conv u v st, none) else match st.theta with
    | none => (conv u v st, some Gpr.Err.typeError)
    | some th =>
      if !(st.noiseVar.all Ext.isFinite && st.yTrain'.all Ext.isFinite) then (conv u v st, some Gpr.Err.valueError)
      else if !cfg.cholOk st.xTrain' st.noiseVar th then (conv u v st, some Gpr.Err.linAlgError)
      else ({ conv u v st with factors := some ⟨st.xTrain', st.yTrain', st.noiseVar, th⟩, newly := 0 }, none)) = _
  unfold updateModel
  by_cases h1 : st.newly < 1
  · rw [if_pos h1, if_pos h1]; rfl
  · rw [if_neg h1, if_neg h1]
    cases h2 : st.theta with
    | none => rfl
    | some th =>
      dsimp only
      by_cases h3 : (!(st.noiseVar.all Ext.isFinite && st.yTrain'.all Ext.isFinite)) = true
      · rw [if_pos h3, if_pos h3]; rfl
      · rw [if_neg h3, if_neg h3]
        by_cases h4 : (!cfg.cholOk st.xTrain' st.noiseVar th) = true
        · rw [if_pos h4, if_pos h4]; rfl
        · rw [if_neg h4, if_neg h4]; simp [convR, conv, h2]

theorem fitHyper_conv (n : Option ℕ) (st : State P PX Θ K) : fitHyper cfg n (conv u v st) = convR u v (fitHyper cfg n st) := by
  unfold fitHyper
  by_cases h1 : n.getD cfg.nRestarts = 0 ∨ cfg.canOptimise = false
  · rw [if_pos h1, if_pos h1]
    show (match st.theta with
      | none => (conv u v st, some Gpr.Err.attributeError)
      | some _ => updateModel cfg (conv u v st)) = _
    cases h2 : st.theta with
    | none => rfl
    | some th => exact updateModel_conv cfg u v st
  · rw [if_neg h1, if_neg h1]
    by_cases h2 : st.xTrain'.isEmpty = true
    · rw [if_pos h2, if_pos (show (conv u v st).xTrain'.isEmpty = true from h2)]; rfl
    · rw [if_neg h2, if_neg (show ¬ (conv u v st).xTrain'.isEmpty = true from h2)]
      have := updateModel_conv cfg u v { st with theta := some (cfg.optimise st.xTrain' st.yTrain' st.noiseVar st.theta (n.getD cfg.nRestarts)) }
      show (match updateModel cfg (conv u v { st with theta := some (cfg.optimise st.xTrain' st.yTrain' st.noiseVar st.theta (n.getD cfg.nRestarts)) }) with
        | (st', some e) => (st', some e)
        | (st', none) => ({ st' with fitted := true }, none)) = _
      rw [this]
      dsimp only
      rcases updateModel cfg { st with theta := some (cfg.optimise st.xTrain' st.yTrain' st.noiseVar st.theta (n.getD cfg.nRestarts)) } with ⟨st', _ | e⟩ <;> rfl

variable (hc : Equivariant cfg u v)
include hc

theorem appendFit_conv (st : State P PX Θ K) (q : Call P K) (mask : List Bool) (noise : List (Ext K)) :
    appendFit cfg (conv u v st) (convC u q) mask noise = convR u v (appendFit cfg st q mask noise) := by
  unfold appendFit
  have hx : ((maskL mask st.xAll).map u).map (cfg.trX (v st.px)) = (maskL mask st.xAll).map (cfg.trX st.px) := by
    simp [Function.comp_def, hc.trX]
  simp only [show (conv u v st).yAll = st.yAll from rfl, show (conv u v st).py = st.py from rfl, show (conv u v st).xAll = st.xAll.map u from rfl,
    show (conv u v st).px = v st.px from rfl, Shift.maskL_map, hx]
  cases h1 : mapE st.py.transform (maskL mask st.yAll) with
  | error e => rfl
  | ok y' =>
    cases h2 : maskChecked mask noise with
    | error e => rfl
    | ok nv =>
      simp only [show (convC u q).fit = q.fit from rfl]
      have e : ∀ z : State P PX Θ K,
          (match q.fit with | .yes n => fitHyper cfg n (conv u v z) | _ => updateModel cfg (conv u v z)) =
          convR u v (match q.fit with | .yes n => fitHyper cfg n z | _ => updateModel cfg z) := by
        intro z
        cases q.fit with
        | yes n => exact fitHyper_conv cfg u v n _
        | no => exact updateModel_conv cfg u v _
        | invalid => exact updateModel_conv cfg u v _
      exact e { st with xTrain := maskL mask st.xAll, yTrain := maskL mask st.yAll, xTrain' := (maskL mask st.xAll).map (cfg.trX st.px), yTrain' := y', noiseVar := nv.map Ext.sq, newly := st.nLastFinite }

theorem tail_conv (st : State P PX Θ K) (q : Call P K) (fc : Bool) (thr : Ext K) (mask : List Bool) (r : Except Gpr.Err (PreY K)) :
    Shift.tail cfg (conv u v st) (convC u q) fc thr mask r = convR u v (Shift.tail cfg st q fc thr mask r) := by
  cases r with
  | error e => rfl
  | ok py =>
    simp only [Shift.tail]
    simp only [show (conv u v st).yAll = st.yAll from rfl,
      show (conv u v st).noise = st.noise from rfl, show (conv u v st).svm = st.svm from rfl, show (conv u v st).nLast = st.nLast from rfl]
    cases h2 : mapE py.transform st.yAll with
    | error e => rfl
    | ok y' =>
      dsimp only
      cases h3 : mapE py.transformScale (match st.noise with
        | .scalar s => List.replicate y'.length (.fin s)
        | .array ks => ks.map .fin) with
      | error e => rfl
      | ok noise' =>
        dsimp only
        have hend : ∀ (st2 : State P PX Θ K) (lm : List Bool),
            (if lm.count true = 0 ∧ ((convC u q).batch.isNone && (convC u q).fit != .no) = false then
              (({ conv u v st2 with nLastFinite := lm.count true } : State P PX Θ K), (none : Option Gpr.Err))
              else appendFit cfg { conv u v st2 with nLastFinite := lm.count true } (convC u q) mask noise') =
            convR u v (if lm.count true = 0 ∧ (q.batch.isNone && q.fit != .no) = false then
              (({ st2 with nLastFinite := lm.count true } : State P PX Θ K), (none : Option Gpr.Err))
              else appendFit cfg { st2 with nLastFinite := lm.count true } q mask noise') := by
          intro st2 lm
          have : (convC u q).batch.isNone = q.batch.isNone := by simp [convC]
          rw [this, show (convC u q).fit = q.fit from rfl]
          by_cases h : lm.count true = 0 ∧ (q.batch.isNone && q.fit != .no) = false
          · rw [if_pos h, if_pos h]; rfl
          · rw [if_neg h, if_neg h]
            exact appendFit_conv cfg u v hc { st2 with nLastFinite := lm.count true } q mask noise'
        cases hu : cfg.useSvm
        · exact hend { st with py := py } _
        · cases fc
          · exact hend { st with py := py } _
          · simp only [if_true]
            cases h4 : py.transformScale thr with
            | error e => rfl
            | ok thr' =>
              dsimp only
              rcases h5 : st.svm.fit y' thr' with ⟨svm, e | f⟩
              · rfl
              · dsimp only
                by_cases hfm : f = mask
                · simp only [hfm, if_true]
                  exact hend { st with py := py, svm := svm } _
                · simp only [hfm, if_false]; rfl

theorem appendMid_conv (st : State P PX Θ K) (q : Call P K) (fc : Bool) (thr : Ext K) (mask : List Bool) :
    appendMid cfg (conv u v st) (convC u q) fc thr mask = convR u v (appendMid cfg st q fc thr mask) := by
  rw [Shift.appendMid_eq, Shift.appendMid_eq]
  simp only [show (conv u v st).xAll = st.xAll.map u from rfl, show (conv u v st).yAll = st.yAll from rfl, show (conv u v st).py = st.py from rfl,
    show (conv u v st).px = v st.px from rfl, Shift.maskL_map, hc.fitX, hc.fitY, List.length_map]
  by_cases hl : mask.length ≠ st.xAll.length
  · rw [if_pos hl, if_pos hl]; rfl
  · rw [if_neg hl, if_neg hl]
    cases fc
    · exact tail_conv cfg u v hc st q false thr mask (.ok st.py)
    · exact tail_conv cfg u v hc { st with px := cfg.fitX st.px (maskL mask st.xAll) (maskL mask st.yAll) } q true thr mask _

/-- **C144**: `append_to_data` in other units does the same (classification, transformed points and targets, hyperparameters, matrices, exceptions). -/
theorem C144_append (st : State P PX Θ K) (q : Call P K) :
    append cfg (conv u v st) (convC u q) = (conv u v (append cfg st q).1, (append cfg st q).2) := by
  show _ = convR u v (append cfg st q)
  unfold append
  have hb : (convC u q).batch.isNone = q.batch.isNone := by simp [convC]
  have hx : (convC u q).xs = q.xs.map u := by unfold Call.xs convC; cases q.batch <;> rfl
  have hy : (convC u q).ys = q.ys := by unfold Call.ys convC; cases q.batch <;> rfl
  simp only [show (convC u q).fit = q.fit from rfl, show (convC u q).noise = q.noise from rfl, show (convC u q).fitClf = q.fitClf from rfl, hb, hx, hy,
    show (conv u v st).noise = st.noise from rfl, show (conv u v st).xAll = st.xAll.map u from rfl, show (conv u v st).yAll = st.yAll from rfl,
    ← List.map_append]
  cases hf : q.fit with
  | invalid => rfl
  | no | yes =>
    dsimp only
    by_cases h1 : (q.batch.isNone && q.noise.isSome) = true
    · rw [if_pos h1, if_pos h1]; rfl
    rw [if_neg h1, if_neg h1]
    cases h3 : validateNoise st.noise q.noise q.ys.length with
    | error e => rfl
    | ok nz =>
      dsimp only
      cases h4 : updateNoise st.noise nz (st.yAll ++ q.ys).length with
      | error e => rfl
      | ok noise =>
        dsimp only
        cases hu : cfg.useSvm
        · exact appendMid_conv cfg u v hc { st with nLast := q.ys.length, xAll := st.xAll ++ q.xs, yAll := st.yAll ++ q.ys, noise := noise } q _ cfg.thr _
        · simp only [if_true]
          cases h5 : diffThresholdKeepN cfg.eps (st.yAll ++ q.ys) cfg.keepMin cfg.thr with
          | error e => rfl
          | ok thr =>
            dsimp only
            cases h6 : isFiniteAll thr (st.yAll ++ q.ys) with
            | error e => rfl
            | ok mask =>
              exact appendMid_conv cfg u v hc { st with nLast := q.ys.length, xAll := st.xAll ++ q.xs, yAll := st.yAll ++ q.ys, noise := noise } q _ thr mask

/-- **C144**: a whole history of calls. -/
theorem C144_history (st : State P PX Θ K) (qs : List (Call P K)) : run cfg (conv u v st) (qs.map (convC u)) = (run cfg st qs).map (conv u v) := by
  induction qs generalizing st with
  | nil => rfl
  | cons q qs ih =>
    simp only [List.map_cons, run, C144_append cfg u v hc]
    rcases append cfg st q with ⟨st', _ | e⟩
    · exact ih st'
    · rfl

omit hc

/-! ## Normalize_bounds -/

section
variable {d : ℕ}

/-- A change of units. -/
def aff (a b : Fin d → K) (x : Fin d → K) : Fin d → K := fun i => a i * x i + b i

/-- Bounds in the new units. -/
def affB (a b : Fin d → K) (B : Fin d → K × K) : Fin d → K × K := fun i => (a i * (B i).1 + b i, a i * (B i).2 + b i)

def affN (a b : Fin d → K) (B : Pre.NormBounds d K) : Pre.NormBounds d K := ⟨aff a b B.lo, aff a b B.hi⟩

theorem divFin_scale (k x w : K) (hk : 0 < k) : (Ext.fin (k * x)).divFin (k * w) = (Ext.fin x).divFin w := by
  have h0 : 0 < k * x ↔ 0 < x := mul_pos_iff_of_pos_left hk
  have h1 : k * x < 0 ↔ x < 0 := by
    constructor
    · intro h
      by_contra hx
      exact absurd h (not_lt.mpr (mul_nonneg hk.le (not_lt.mp hx)))
    · exact fun h => mul_neg_of_pos_of_neg hk h
  simp only [Ext.divFin, mul_eq_zero, hk.ne', false_or, h0, h1, mul_div_mul_left _ _ hk.ne']

/-- **C144**, preprocessing.py:367-411: the points in the unit cube are the same, also for bounds of zero width, and so is the inverse, up to the units. -/
theorem C144_bounds (a b : Fin d → K) (ha : ∀ i, 0 < a i) (B : Pre.NormBounds d K) (x z : Fin d → K) :
    (affN a b B).transform (aff a b x) = B.transform x ∧ (affN a b B).inverse z = aff a b (B.inverse z) := by
  constructor
  · funext i
    unfold Pre.NormBounds.transform
    have h1 : aff a b x i - (affN a b B).lo i = a i * (x i - B.lo i) := by simp only [aff, affN]; ring
    have h2 : (affN a b B).hi i - (affN a b B).lo i = a i * (B.hi i - B.lo i) := by simp only [aff, affN]; ring
    rw [h1, h2, divFin_scale _ _ _ (ha i)]
  · funext i
    simp only [Pre.NormBounds.inverse, affN, aff]
    ring

/-- **C144**: `Normalize_bounds` with a preprocessor of the targets that does not look at the points is what `C144_append` needs. -/
theorem C144_preprocessors (cfg : Cfg (Fin d → K) (Pre.NormBounds d K) Θ K) (a b : Fin d → K) (ha : ∀ i, 0 < a i)
    (hX : cfg.fitX = fun B _ _ => B) (hT : cfg.trX = fun B x i => (x i - B.lo i) / (B.hi i - B.lo i))
    (fy : PreY K → List (Ext K) → Except Gpr.Err (PreY K)) (hY : cfg.fitY = fun q _ ys => fy q ys) : Equivariant cfg (aff a b) (affN a b) := by
  refine ⟨fun px xs ys => by rw [hX], fun B x => ?_, fun q xs ys => by rw [hY]⟩
  rw [hT]
  funext i
  have h1 : aff a b x i - (affN a b B).lo i = a i * (x i - B.lo i) := by simp only [aff, affN]; ring
  have h2 : (affN a b B).hi i - (affN a b B).lo i = a i * (B.hi i - B.lo i) := by simp only [aff, affN]; ring
  show (aff a b x i - (affN a b B).lo i) / ((affN a b B).hi i - (affN a b B).lo i) = _
  rw [h1, h2, mul_div_mul_left _ _ (ha i).ne']

/-! ## Trust region -/

theorem foldl_max_aff (k c : K) (hk : 0 < k) : ∀ (l : List K) (x : K), (l.map fun v => k * v + c).foldl max (k * x + c) = k * l.foldl max x + c
  | [], x => rfl
  | y :: l, x => by
    have : max (k * x + c) (k * y + c) = k * max x y + c := by rw [max_add_add_right, mul_max_of_nonneg _ _ hk.le]
    simp only [List.map_cons, List.foldl_cons, this, foldl_max_aff k c hk l]

theorem foldl_min_aff (k c : K) (hk : 0 < k) : ∀ (l : List K) (x : K), (l.map fun v => k * v + c).foldl min (k * x + c) = k * l.foldl min x + c
  | [], x => rfl
  | y :: l, x => by
    have : min (k * x + c) (k * y + c) = k * min x y + c := by rw [min_add_add_right, mul_min_of_nonneg _ _ hk.le]
    simp only [List.map_cons, List.foldl_cons, this, foldl_min_aff k c hk l]

theorem shrinkBounds_aff (k c f : K) (hk : 0 < k) (q : K × K) (xs : List K) :
    Tools.shrinkBounds f (k * q.1 + c, k * q.2 + c) (xs.map fun v => k * v + c) = (Tools.shrinkBounds f q xs).map fun r => (k * r.1 + c, k * r.2 + c) := by
  cases xs with
  | nil => rfl
  | cons x l =>
    simp only [Tools.shrinkBounds, Tools.minOf, Tools.maxOf, List.map_cons, foldl_max_aff k c hk, foldl_min_aff k c hk, Except.map]
    generalize l.foldl max x = hi
    generalize l.foldl min x = lo
    have h1 : k * lo + c - (f - 1) / 2 * (k * hi + c - (k * lo + c)) = k * (lo - (f - 1) / 2 * (hi - lo)) + c := by ring
    have h2 : k * hi + c + (f - 1) / 2 * (k * hi + c - (k * lo + c)) = k * (hi + (f - 1) / 2 * (hi - lo)) + c := by ring
    rw [h1, h2, max_add_add_right, min_add_add_right, ← mul_max_of_nonneg _ _ hk.le, ← mul_min_of_nonneg _ _ hk.le]

theorem select_aff (delta : K → K) (u : (Fin d → K) → Fin d → K) (tr : List ((Fin d → K) × K)) (nstd : K) :
    Trust.select delta (tr.map fun q => (u q.1, q.2)) nstd = (Trust.select delta tr nstd).map fun q => (u q.1, q.2) := by
  unfold Trust.select
  have : (tr.map fun q => (u q.1, q.2)).map Prod.snd = tr.map Prod.snd := by simp [Function.comp_def]
  rw [this]
  cases Tools.maxOf (tr.map Prod.snd) with
  | none => rfl
  | some top => simp [List.filter_map, Function.comp_def]

theorem trustLoop_aff (delta : K → K) (u : (Fin d → K) → Fin d → K) (tr : List ((Fin d → K) × K)) : ∀ (fuel : ℕ) (nstd : K) (use : List ((Fin d → K) × K)),
    Trust.loop delta (tr.map fun q => (u q.1, q.2)) fuel nstd (use.map fun q => (u q.1, q.2)) =
      (Trust.loop delta tr fuel nstd use).map (List.map fun q => (u q.1, q.2))
  | 0, _, _ => rfl
  | fuel + 1, nstd, use => by
    unfold Trust.loop
    rw [List.length_map, List.length_map, select_aff]
    split_ifs
    · exact trustLoop_aff delta u tr fuel _ _
    · rfl

theorem shrink_aff (f : K) (a b : Fin d → K) (ha : ∀ i, 0 < a i) (B : Fin d → K × K) (use : List (Fin d → K)) :
    Trust.shrink f (affB a b B) (use.map (aff a b)) = (Trust.shrink f B use).map (affB a b) := by
  unfold Trust.shrink
  simp only [List.map_eq_nil_iff]
  split_ifs with h
  · rfl
  · simp only [Except.map, Except.ok.injEq]
    funext j
    have : (use.map (aff a b)).map (· j) = (use.map (· j)).map fun v => a j * v + b j := by simp [Function.comp_def, aff]
    rw [this, show affB a b B j = (a j * (B j).1 + b j, a j * (B j).2 + b j) from rfl, shrinkBounds_aff _ _ _ (ha j)]
    cases hs : Tools.shrinkBounds f (B j) (use.map (· j)) <;> simp [Except.map, affB, hs]

/-- **C144**, gpr.py:554-575: the trust region in the new units. -/
theorem C144_trust (delta : K → K) (a b : Fin d → K) (ha : ∀ i, 0 < a i) (B : Fin d → K × K) (factor nstd : Option K) (tr : List ((Fin d → K) × K))
    (old : Option (Fin d → K × K)) (fuel : ℕ) :
    Trust.updateTrust delta (affB a b B) factor nstd (tr.map fun q => (aff a b q.1, q.2)) (old.map (affB a b)) fuel =
      (Trust.updateTrust delta B factor nstd tr old fuel).map fun r => r.map fun o => o.map (affB a b) := by
  unfold Trust.updateTrust
  cases factor with
  | none => rfl
  | some f =>
    have : Trust.used delta nstd (tr.map fun q => (aff a b q.1, q.2)) fuel = (Trust.used delta nstd tr fuel).map (List.map fun q => (aff a b q.1, q.2)) := by
      unfold Trust.used
      cases nstd with
      | none => rfl
      | some s => exact trustLoop_aff delta (aff a b) tr fuel s []
    dsimp only
    rw [this]
    cases Trust.used delta nstd tr fuel with
    | none => rfl
    | some use =>
      have e : (use.map fun q => (aff a b q.1, q.2)).map Prod.fst = (use.map Prod.fst).map (aff a b) := by simp [Function.comp_def]
      simp only [Option.map_some, e, shrink_aff f a b ha]
      cases Trust.shrink f B (use.map Prod.fst) <;> rfl

/-! ## Mean and covariance from the training set -/

/-- A number in the new units. -/
def affE (k c : K) : Ext K → Ext K
  | .fin x => .fin (k * x + c)
  | e => e

/-- Mean and covariance in the new units. -/
def affM (a b : Fin d → K) (m : Cov.MeanCov d K) : Cov.MeanCov d K :=
  ⟨fun i => affE (a i) (b i) (m.mean i), ⟨m.cov.ndim, fun i j => affE (a i * a j) 0 (m.cov.val i j)⟩⟩

theorem zip_aff {W : Type*} (a b : Fin d → K) (w : List W) (X : List (Fin d → K)) : w.zip (X.map (aff a b)) = (w.zip X).map fun q => (q.1, aff a b q.2) := by
  rw [List.zip_map_right]; rfl

theorem sum_aff (a b : Fin d → K) (i : Fin d) : ∀ p : List (K × (Fin d → K)),
    ((p.map fun q => (q.1, aff a b q.2)).map fun q => q.1 * q.2 i).sum = a i * (p.map fun q => q.1 * q.2 i).sum + b i * (p.map Prod.fst).sum
  | [] => by simp
  | q :: p => by
    have := sum_aff a b i p
    simp only [List.map_cons, List.sum_cons, this]
    simp only [aff]; ring

theorem wsum_aff (a b : Fin d → K) (p : List (K × (Fin d → K))) : Cov.wsum (p.map fun q => (q.1, aff a b q.2)) = Cov.wsum p := by
  simp [Cov.wsum, Function.comp_def]

theorem wmean_aff (a b : Fin d → K) (p : List (K × (Fin d → K))) (h : Cov.wsum p ≠ 0) (i : Fin d) :
    Cov.wmean (p.map fun q => (q.1, aff a b q.2)) i = a i * Cov.wmean p i + b i := by
  unfold Cov.wmean
  rw [wsum_aff, sum_aff]
  unfold Cov.wsum at h ⊢
  field_simp

theorem scatter_aff (a b : Fin d → K) (p : List (K × (Fin d → K))) (h : Cov.wsum p ≠ 0) (i j : Fin d) :
    Cov.scatter (p.map fun q => (q.1, aff a b q.2)) i j = a i * a j * Cov.scatter p i j := by
  unfold Cov.scatter
  rw [wmean_aff a b p h, wmean_aff a b p h, ← List.sum_map_mul_left, List.map_map]
  congr 1
  apply List.map_congr_left
  intro q _
  simp only [Function.comp_def, aff]
  ring

theorem divFin_affE (k x w : K) (hk : 0 < k) : (Ext.fin (k * x)).divFin w = affE k 0 ((Ext.fin x).divFin w) := by
  by_cases hw : w = 0
  · subst hw
    have := divFin_scale k x 0 hk
    rw [mul_zero] at this
    rw [this]
    simp only [Ext.divFin, if_true]
    split_ifs <;> rfl
  · simp only [Ext.divFin, hw, if_false, affE, mul_div_assoc, add_zero]

theorem fromWeights_aff (a b : Fin d → K) (ha : ∀ i, 0 < a i) (X : List (Fin d → K)) (w : List (Ext K)) :
    Cov.fromWeights (X.map (aff a b)) w = (Cov.fromWeights X w).map (affM a b) := by
  unfold Cov.fromWeights
  cases hw : Cov.finites w with
  | none => rfl
  | some ws =>
    simp only [Cov.average, Cov.npCov, List.length_map]
    by_cases h1 : ws.length ≠ X.length
    · simp only [h1, ite_true, not_false_eq_true, ne_eq]; rfl
    · simp only [h1, if_false]
      by_cases h2 : ws.sum = 0
      · simp only [h2, if_true]; rfl
      · simp only [h2, if_false]
        by_cases h3 : (ws.any fun a => decide (a < 0)) = true
        · simp only [h3, if_true]; rfl
        · have hl : ws.length = X.length := not_not.mp h1
          have hs : Cov.wsum (ws.zip X) ≠ 0 := by
            unfold Cov.wsum
            rw [List.map_fst_zip (by omega)]
            exact h2
          simp only [h3, if_false, Except.map, Bool.false_eq_true, Except.ok.injEq, affM, Cov.covOf, Cov.MeanCov.mk.injEq, Cov.CovMat.mk.injEq, true_and]
          rw [zip_aff]
          refine ⟨?_, ?_⟩
          · funext i
            rw [wmean_aff a b _ hs]; rfl
          · funext i j
            rw [scatter_aff a b _ hs, divFin_affE _ _ _ (mul_pos (ha i) (ha j))]

/-- **C144**, tools.py:431-440: mean and covariance of the training set in the new units. (That the divergence of two normal distributions and the credibility do not
depend on the units is `C60_affine_invariant` and `C124_affine`.) -/
theorem C144_evals (ex : K → K) (a b : Fin d → K) (ha : ∀ i, 0 < a i) (X : List (Fin d → K)) (logp : List (Ext K)) :
    Cov.fromEvals ex (X.map (aff a b)) logp = (Cov.fromEvals ex X logp).map (affM a b) := by
  unfold Cov.fromEvals
  cases Ext.pyMax logp with
  | none => rfl
  | some m =>
    simp only [Cov.removeZero, Cov.deleteAll, List.length_map]
    split_ifs with h
    · rfl
    · have : ∀ w : List (Ext K), Cov.deleteZero w (X.map (aff a b)) = (Cov.deleteZero w X).map (aff a b) := by
        intro w
        unfold Cov.deleteZero
        rw [zip_aff]
        simp [List.filter_map, Function.comp_def]
      simp only [this]
      exact fromWeights_aff a b ha _ _

end

/-! ## The runner -/

section
variable (hc : Equivariant cfg u v) (inv : P → P)
include hc

theorem nFiniteNew_conv {α : Type*} (acc : List (α × Ext K)) (f : α → α) : ((acc.map fun q => (f q.1, q.2)).map Prod.snd) = acc.map Prod.snd := by
  simp [Function.comp_def]

theorem initRounds_conv (p k needed : ℕ) (draw : ℕ → ℕ → ℕ → P × Ext K) :
    ∀ (n i : ℕ) (acc : List (P × Ext K)),
      Run.initRounds cfg p k needed (fun i r j => (u (draw i r j).1, (draw i r j).2)) n i (acc.map fun q => (u q.1, q.2)) =
        ((Run.initRounds cfg p k needed draw n i acc).1.map (fun q => (u q.1, q.2)), (Run.initRounds cfg p k needed draw n i acc).2)
  | 0, i, acc => rfl
  | n + 1, i, acc => by
    have e : (acc.map fun q => (u q.1, q.2)) ++ Run.roundPts p k (fun i r j => (u (draw i r j).1, (draw i r j).2)) i =
        (acc ++ Run.roundPts p k draw i).map fun q => (u q.1, q.2) := by
      rw [List.map_append]
      congr 1
      simp [Run.roundPts, List.map_flatMap, Function.comp_def]
    unfold Run.initRounds
    simp only [e]
    have e2 : ((acc ++ Run.roundPts p k draw i).map fun q => (u q.1, q.2)).map Prod.snd = (acc ++ Run.roundPts p k draw i).map Prod.snd := by
      simp [Function.comp_def]
    rw [e2]
    split_ifs
    · rfl
    · exact initRounds_conv p k needed draw n (i + 1) _

/-- **C144**, run.py:1071-1198: initial training on `p` processes, with the points drawn in the new units. -/
theorem C144_initial (p nInitial maxInitial : ℕ) (verbose : ℤ) (draw : ℕ → ℕ → ℕ → P × Ext K) (g : State P PX Θ K) :
    Run.initialTraining cfg p nInitial maxInitial verbose (fun i r j => (u (draw i r j).1, (draw i r j).2)) (conv u v g) =
      (Run.initialTraining cfg p nInitial maxInitial verbose draw g).map fun r => (r.1.map fun q => (u q.1, q.2), conv u v r.2) := by
  have hz : (conv u v g).xTrain.zip (conv u v g).yTrain = (g.xTrain.zip g.yTrain).map fun q => (u q.1, q.2) := by
    show (g.xTrain.map u).zip g.yTrain = _
    rw [List.zip_map_left]; rfl
  unfold Run.initialTraining
  rw [hz, show (conv u v g).yTrain = g.yTrain from rfl]
  simp only [initRounds_conv cfg u v hc]
  by_cases hk : Mpi.ceilDiv (nInitial - g.yTrain.length) p = 0
  · rw [if_pos hk, if_pos hk]
    split_ifs <;> rfl
  · rw [if_neg hk, if_neg hk]
    rcases Run.initRounds cfg p (Mpi.ceilDiv (nInitial - g.yTrain.length) p) (nInitial - g.yTrain.length) draw
      (Mpi.ceilDiv maxInitial (Mpi.ceilDiv (nInitial - g.yTrain.length) p)) 0 (g.xTrain.zip g.yTrain) with ⟨acc, _ | _⟩
    · rfl
    · dsimp only
      have e := C144_append cfg u v hc g { batch := some (acc.map Prod.fst, acc.map Prod.snd) }
      have e2 : convC u { batch := some (acc.map Prod.fst, acc.map Prod.snd) } =
          ({ batch := some ((acc.map fun q => (u q.1, q.2)).map Prod.fst, (acc.map fun q => (u q.1, q.2)).map Prod.snd) } : Call P K) := by
        simp [convC, Function.comp_def]
      rw [← e2, e]
      rcases append cfg g { batch := some (acc.map Prod.fst, acc.map Prod.snd) } with ⟨g', _ | e⟩ <;> rfl

/-- The state of the loop in the new units. -/
def convSt (u : P → P) (v : PX → PX) (s : Run.St (State P PX Θ K) P) : Run.St (State P PX Θ K) P := { s with gpr := conv u v s.gpr, evals := s.evals.map u }

variable (truth truth' : P → Ext K) (ht : ∀ x, truth' (u x) = truth x) (acq acq' : ℕ → State P PX Θ K → List P) (kind : ℕ → FitArg)
  (cv dg cv' dg' : ℕ → State P PX Θ K → State P PX Θ K → Bool) (hacq : ∀ i g, acq' i (conv u v g) = (acq i g).map u)
  (hconv : ∀ i g g', cv' i (conv u v g) (conv u v g') = cv i g g') (hdiag : ∀ i g g', dg' i (conv u v g) (conv u v g') = dg i g g')
include ht hacq hconv hdiag

theorem iterate_conv (o : Run.Opts) (mc : Bool) (s : Run.St (State P PX Θ K) P) :
    Run.iterate o mc (Shift.step cfg truth' acq' kind cv' dg' s.iter (conv u v s.gpr)) (convSt u v s) =
      (convSt u v (Run.iterate o mc (Shift.step cfg truth acq kind cv dg s.iter s.gpr) s).1, (Run.iterate o mc (Shift.step cfg truth acq kind cv dg s.iter s.gpr) s).2) := by
  have e0 : ∀ g, (({ batch := some ((acq s.iter g).map u, ((acq s.iter g).map u).map truth'), fit := kind s.iter } : Call P K)) =
      convC u { batch := some (acq s.iter g, (acq s.iter g).map truth), fit := kind s.iter } := by
    intro g
    simp [convC, Function.comp_def, ht]
  have e1 : Shift.step cfg truth' acq' kind cv' dg' s.iter (conv u v s.gpr) =
      { cands := (acq s.iter s.gpr).map u
        fit := fun g => match append cfg g (convC u { batch := some (acq s.iter s.gpr, (acq s.iter s.gpr).map truth), fit := kind s.iter }) with
          | (g', none) => .ok g'
          | (_, some e) => .error e
        conv := (Shift.step cfg truth acq kind cv dg s.iter s.gpr).conv
        diag := (Shift.step cfg truth acq kind cv dg s.iter s.gpr).diag } := by
    unfold Shift.step
    simp only [hacq, e0, C144_append cfg u v hc, hconv, hdiag]
    rfl
  rw [e1]
  have e3 : Shift.step cfg truth acq kind cv dg s.iter s.gpr =
      { cands := acq s.iter s.gpr
        fit := fun g => match append cfg g { batch := some (acq s.iter s.gpr, (acq s.iter s.gpr).map truth), fit := kind s.iter } with
          | (g', none) => .ok g'
          | (_, some e) => .error e
        conv := (Shift.step cfg truth acq kind cv dg s.iter s.gpr).conv
        diag := (Shift.step cfg truth acq kind cv dg s.iter s.gpr).diag } := rfl
  rw [e3]
  generalize (Shift.step cfg truth acq kind cv dg s.iter s.gpr).conv = b1
  generalize (Shift.step cfg truth acq kind cv dg s.iter s.gpr).diag = b2
  unfold Run.iterate
  simp only [List.length_map]
  by_cases h1 : ((acq s.iter s.gpr).length : ℤ) < max 1 (o.nAcq / 2)
  · simp only [h1, if_true]
    show (if o.nResamples < ((s.resamples + 1 : ℕ) : ℤ) then _ else _) = _
    by_cases h2 : o.nResamples < ((s.resamples + 1 : ℕ) : ℤ)
    · simp only [h2, if_true]; rfl
    · simp only [h2, if_false]; rfl
  · simp only [h1, if_false]
    rw [show (convSt u v s).gpr = conv u v s.gpr from rfl, C144_append cfg u v hc]
    rcases append cfg s.gpr { batch := some (acq s.iter s.gpr, (acq s.iter s.gpr).map truth), fit := kind s.iter } with ⟨g', _ | e⟩
    · dsimp only
      cases b1 <;> cases mc <;> simp [convSt]
    · simp [convSt]

theorem loop_conv (o : Run.Opts) (mc : Bool) (nF : State P PX Θ K → ℕ) (hF : ∀ g, nF (conv u v g) = nF g) :
    ∀ (fuel : ℕ) (s : Run.St (State P PX Θ K) P),
      Run.loop o mc (nTotal cfg) nF (Shift.step cfg truth' acq' kind cv' dg') fuel (convSt u v s) =
        (Run.loop o mc (nTotal cfg) nF (Shift.step cfg truth acq kind cv dg) fuel s).map fun r => (convSt u v r.1, r.2)
  | 0, s => rfl
  | fuel + 1, s => by
    unfold Run.loop
    have hT : nTotal cfg (convSt u v s).gpr = nTotal cfg s.gpr := by simp [nTotal, convSt, conv]
    have hF' : nF (convSt u v s).gpr = nF s.gpr := hF s.gpr
    rw [hT, hF', show (convSt u v s).hasConverged = s.hasConverged from rfl, show (convSt u v s).iter = s.iter from rfl,
      show (convSt u v s).gpr = conv u v s.gpr from rfl, iterate_conv cfg u v hc truth truth' ht acq acq' kind cv dg cv' dg' hacq hconv hdiag]
    split_ifs
    · rcases Run.iterate o mc (Shift.step cfg truth acq kind cv dg s.iter s.gpr) s with ⟨s', _ | _ | e⟩
      · exact loop_conv o mc nF hF fuel s'
      · rfl
      · rfl
    · rfl

/-- **C144** (partial: one process, and an engine and criteria that follow the change of units), run.py:804-1061: the whole loop evaluates the same points in the new units, and ends
in the same way after the same number of iterations. -/
theorem C144_loop_partial (o : Run.Opts) (mc : Bool) (fuel : ℕ) (g : State P PX Θ K) :
    Run.runLoop o mc (nTotal cfg) (fun g => g.yTrain.length) (Shift.step cfg truth' acq' kind cv' dg') fuel (conv u v g) =
      (Run.runLoop o mc (nTotal cfg) (fun g => g.yTrain.length) (Shift.step cfg truth acq kind cv dg) fuel g).map
        fun r => ({ r.1 with gpr := conv u v r.1.gpr, evals := r.1.evals.map u }, r.2) := by
  have h := loop_conv cfg u v hc truth truth' ht acq acq' kind cv dg cv' dg' hacq hconv hdiag o mc (fun g => g.yTrain.length) (fun g => rfl) fuel (Run.St.start g)
  unfold Run.runLoop
  rw [show (Run.St.start (conv u v g) : Run.St (State P PX Θ K) P) = convSt u v (Run.St.start g) from rfl, h]
  rcases Run.loop o mc (nTotal cfg) (fun g => g.yTrain.length) (Shift.step cfg truth acq kind cv dg) fuel (Run.St.start g) with _ | ⟨s, _ | _ | e⟩
  · rfl
  · dsimp only [Option.map]
    rw [show (convSt u v s).hasConverged = s.hasConverged from rfl]
    split_ifs <;> rfl
  · rfl
  · rfl

end

/-! ## Predictions -/

section
open Predict
variable {d n : ℕ}

/-- The surrogate in the new units; `t` is `preprocessing_X.transform` with the new bounds. -/
noncomputable def convG (a b : Fin d → ℝ) (t : (Fin d → ℝ) → Fin d → ℝ) (st : St d n) : St d n :=
  { st with M := { st.M with trX := t }, R := { st.R with X := fun i => aff a b (st.R.X i) }, trust := st.trust.map (affB a b) }

theorem zipWith_ofFn {A B C : Type*} (f : A → B → C) (g : Fin d → A) (h : Fin d → B) : List.zipWith f (List.ofFn g) (List.ofFn h) = List.ofFn fun j => f (g j) (h j) := by
  apply List.ext_getElem <;> simp

theorem outside_aff (a b : Fin d → ℝ) (ha : ∀ i, 0 < a i) (B : Fin d → ℝ × ℝ) (x : Fin d → ℝ) : outside (affB a b B) (aff a b x) = outside B x := by
  unfold outside Tools.isInBounds
  rw [zipWith_ofFn, zipWith_ofFn]
  congr 3
  funext j
  simp [Ext.ge, Ext.le, affB, aff, mul_le_mul_iff_right₀ (ha j)]

variable (a b : Fin d → ℝ) (ha : ∀ i, 0 < a i) (t : (Fin d → ℝ) → Fin d → ℝ) (st : St d n) (ht : ∀ x, t (aff a b x) = st.M.trX x)
include ht

theorem data_conv : (convG a b t st).M.data (convG a b t st).R = st.M.data st.R := by
  simp [Gp.Model.data, convG, ht]

theorem mean_conv (x : Fin d → ℝ) : (convG a b t st).M.mean (convG a b t st).chol (convG a b t st).R (aff a b x) = st.M.mean st.chol st.R x := by
  unfold Gp.Model.mean
  rw [data_conv a b t st ht, show (convG a b t st).M.trX = t from rfl, ht]
  rfl

theorem std_conv (x : Fin d → ℝ) : (convG a b t st).M.std (convG a b t st).chol (convG a b t st).R (aff a b x) = st.M.std st.chol st.R x := by
  unfold Gp.Model.std
  rw [data_conv a b t st ht, show (convG a b t st).M.trX = t from rfl, ht]
  rfl

theorem means_conv (X : List (Fin d → ℝ)) : (convG a b t st).means (X.map (aff a b)) = st.means X := by
  unfold St.means
  have e1 : ((X.map (aff a b)).map fun x => (convG a b t st).M.mean (convG a b t st).chol (convG a b t st).R x) = X.map fun x => st.M.mean st.chol st.R x := by
    simp [mean_conv a b t st ht, Function.comp_def]
  rw [e1]
  rfl

include ha

theorem trustMask_conv (X : List (Fin d → ℝ)) (ign : Bool) (m : List (Ext ℝ)) : (convG a b t st).trustMask (X.map (aff a b)) ign m = st.trustMask X ign m := by
  unfold St.trustMask
  rw [show (convG a b t st).trust = st.trust.map (affB a b) from rfl, show (convG a b t st).minf = st.minf from rfl]
  cases ign
  · cases st.trust with
    | none => rfl
    | some B => simp [Function.comp_def, outside_aff a b ha]
  · rfl

/-- **C144**, gpr.py:1030-1230: `predict`, with the classifier, the trust region and the ceiling. -/
theorem C144_predict (hf : st.fitted = true) (X : List (Fin d → ℝ)) (ign : Bool) :
    (convG a b t st).predict (X.map (aff a b)) ign = st.predict X ign := by
  have hs : ∀ Y : List (Fin d → ℝ), ((Y.map (aff a b)).map fun x => (convG a b t st).M.std (convG a b t st).chol (convG a b t st).R x) = Y.map fun x => st.M.std st.chol st.R x := by
    intro Y
    simp [std_conv a b t st ht, Function.comp_def]
  have hx : (X.map (aff a b)).map (convG a b t st).M.trX = X.map st.M.trX := by simp [convG, ht, Function.comp_def]
  have hm : ∀ m : List Bool, maskGet m (X.map (aff a b)) = (maskGet m X).map (aff a b) := fun m => Shift.maskGet_map _ _ _
  have hk : ∀ {A : Type} (y : A), ((X.map (aff a b)).map fun _ => y) = X.map fun _ => y := fun y => by simp [Function.comp_def]
  have hf' : (convG a b t st).fitted = true := hf
  unfold St.predict
  simp only [trustMask_conv a b ha t st ht, means_conv a b t st ht, hs, hx, hm, hk, hf, hf', Bool.not_true, Bool.false_eq_true, if_false]
  rfl

/-- **C144**, gpr.py:1302-1352: `predict_std`. -/
theorem C144_std (hf : st.fitted = true) (X : List (Fin d → ℝ)) : (convG a b t st).predictStd (X.map (aff a b)) = st.predictStd X := by
  have hs : ∀ Y : List (Fin d → ℝ), ((Y.map (aff a b)).map fun x => (convG a b t st).M.std (convG a b t st).chol (convG a b t st).R x) = Y.map fun x => st.M.std st.chol st.R x := by
    intro Y
    simp [std_conv a b t st ht, Function.comp_def]
  have hx : (X.map (aff a b)).map (convG a b t st).M.trX = X.map st.M.trX := by simp [convG, ht, Function.comp_def]
  have hm : ∀ m : List Bool, maskGet m (X.map (aff a b)) = (maskGet m X).map (aff a b) := fun m => Shift.maskGet_map _ _ _
  have hk : ∀ {A : Type} (y : A), ((X.map (aff a b)).map fun _ => y) = X.map fun _ => y := fun y => by simp [Function.comp_def]
  have hf' : (convG a b t st).fitted = true := hf
  unfold St.predictStd
  simp only [hs, hx, hm, hk, hf, hf', Bool.not_true, Bool.false_eq_true, if_false]
  rfl

open AcqPts in
/-- **C144**, acquisition_functions.py: all the acquisition functions, sums, products and powers of them. -/
theorem C144_acquisition (cdf pdf : ℝ → ℝ) (pw : ℝ → Ext ℝ → Ext ℝ) (hf : st.fitted = true) (noise : Acq.Noise) (yMax : ℝ)
    (ok ok' : (Fin d → ℝ) → Bool) (hok : ∀ x, ok' (aff a b x) = ok x) (X : List (Fin d → ℝ)) (f : Af) :
    f.eval cdf pdf pw ⟨convG a b t st, noise, yMax, ok'⟩ (X.map (aff a b)) = f.eval cdf pdf pw ⟨st, noise, yMax, ok⟩ X := by
  have hno : noGrad ⟨convG a b t st, noise, yMax, ok'⟩ (X.map (aff a b)) = noGrad ⟨st, noise, yMax, ok⟩ X := by
    unfold noGrad
    dsimp only
    rw [C144_predict a b ha t st ht hf]
  have hwi : withGrad ⟨convG a b t st, noise, yMax, ok'⟩ (X.map (aff a b)) = withGrad ⟨st, noise, yMax, ok⟩ X := by
    unfold withGrad
    dsimp only
    rw [C144_predict a b ha t st ht hf, List.length_map, List.all_map]
    simp only [Function.comp_def, hok]
  induction f with
  | leaf l => cases l <;> simp [Af.eval, Leaf.eval, hno, hwi, Function.comp_def]
  | sum f g ihf ihg => simp only [Af.eval, ihf, ihg]
  | prod f g ihf ihg => simp only [Af.eval, ihf, ihg]
  | pow f p ihf => simp only [Af.eval, ihf]

omit ha in
/-- **C144**, gpr.py:1231-1267 the gradients that `predict` returns are the same numbers in all units. -/
theorem C144_gradient_same (general : ℕ → ℝ → ℝ) (e : Kernels.KExpr d) (x : Fin d → ℝ) :
    (convG a b t st).predictGrad general e (aff a b x) = st.predictGrad general e x := by
  unfold St.predictGrad
  rw [data_conv a b t st ht, show (convG a b t st).M.trX = t from rfl, ht]
  rfl

omit ha in
/-- **C144**: so they are not the gradient of the predictions with respect to the parameters in both units, unless they are zero. (`g` is what `predict` returns along the parameter `j`.) -/
theorem C144_gradient_counterexample (x : Fin d → ℝ) (j : Fin d) (g : ℝ) (haj : a j ≠ 1) (hg : g ≠ 0)
    (h : HasDerivAt (fun s => st.M.mean st.chol st.R (Function.update x j s)) g (x j)) :
    ¬ HasDerivAt (fun s => (convG a b t st).M.mean (convG a b t st).chol (convG a b t st).R (Function.update (aff a b x) j s)) g (aff a b x j) := by
  intro h'
  have hu : HasDerivAt (fun s => a j * s + b j) (a j) (x j) := by
    simpa using ((hasDerivAt_id (x j)).const_mul (a j)).add_const (b j)
  have h2 := HasDerivAt.comp (x j) (show HasDerivAt _ g (a j * x j + b j) from h') hu
  have e : (fun s => (convG a b t st).M.mean (convG a b t st).chol (convG a b t st).R (Function.update (aff a b x) j s)) ∘ (fun s => a j * s + b j) =
      fun s => st.M.mean st.chol st.R (Function.update x j s) := by
    funext s
    have : Function.update (aff a b x) j (a j * s + b j) = aff a b (Function.update x j s) := by
      funext i
      by_cases hi : i = j
      · subst hi; simp [aff]
      · simp [aff, hi]
    simp only [Function.comp_def, this, mean_conv a b t st ht]
  rw [e] at h2
  have := h.unique h2
  apply haj
  have h3 : g * (a j - 1) = 0 := by linarith
  rcases mul_eq_zero.1 h3 with h4 | h4
  · exact absurd h4 hg
  · linarith

end

/-! ## Proposers -/

section
open Proposal

/-- A point in the new units. -/
def affL (a b : ℕ → K) (x : List K) : List K := x.mapIdx fun i v => a i * v + b i

def affX (a b : ℕ → K) (x : List (Ext K)) : List (Ext K) := x.mapIdx fun i v => affE (a i) (b i) v

def affBox (a b : ℕ → K) (B : Box K) : Box K := B.mapIdx fun i q => (a i * q.1 + b i, a i * q.2 + b i)

/-- The proposer in the new units. -/
def convP (a b : ℕ → K) : Proposer K → Proposer K
  | .checked tag B => .checked tag (affBox a b B)
  | .uniform B => .uniform (affBox a b B)
  | .part B rpf p => .part (affBox a b B) rpf (convP a b p)
  | .centroids B t t' => .centroids (affBox a b B) (t.map (List.map (affL a b))) (t'.map (List.map (affL a b)))

/-- The same random numbers; the proposals that are checked come in the new units. -/
def convRng {G : Type*} (a b : ℕ → K) (R : Rng K G) : Rng K G := { R with raw := fun tag g => (affX a b (R.raw tag g).1, (R.raw tag g).2) }

variable (a b : ℕ → K) (ha : ∀ i, 0 < a i)

theorem map_fin_affL (x : List K) : (affL a b x).map Ext.fin = affX a b (x.map Ext.fin) := by
  apply List.ext_getElem <;> simp [affL, affX, affE]

include ha

theorem isInBounds_aff (B : Box K) (x : List (Ext K)) : Tools.isInBounds (ext (affBox a b B)) (affX a b x) = Tools.isInBounds (ext B) x := by
  unfold Tools.isInBounds
  congr 1
  apply List.ext_getElem
  · simp [affX, affBox, ext]
  · intro i h1 h2
    simp only [List.getElem_zipWith, affX, ext, affBox, List.getElem_mapIdx, List.getElem_map]
    cases x[i]'(by simp at h2; omega) <;> simp [affE, Ext.ge, Ext.le, mul_le_mul_iff_right₀ (ha i)]

theorem checkLoop_aff {G : Type*} (R : Rng K G) (tag : ℕ) (B : Box K) : ∀ (fuel : ℕ) (g : G),
    checkLoop (convRng a b R) tag (affBox a b B) fuel g = (checkLoop R tag B fuel g).map fun q => (affX a b q.1, q.2)
  | 0, g => rfl
  | fuel + 1, g => by
    simp only [checkLoop, convRng, isInBounds_aff a b ha]
    split_ifs
    · rfl
    · exact checkLoop_aff R tag B fuel _

omit ha in
theorem uniformPoint_aff (B : Box K) (w : List K) : uniformPoint (affBox a b B) w = affL a b (uniformPoint B w) := by
  apply List.ext_getElem
  · simp [uniformPoint, affBox, affL]
  · intro i h1 h2
    simp only [uniformPoint, affBox, affL, List.getElem_zipWith, List.getElem_mapIdx]
    ring

omit ha in
theorem clip_aff (k c lo hi x : K) (hk : 0 < k) : clip (k * lo + c) (k * hi + c) (k * x + c) = k * clip lo hi x + c := by
  unfold clip
  rw [max_add_add_right, min_add_add_right, ← mul_max_of_nonneg _ _ hk.le, ← mul_min_of_nonneg _ _ hk.le]

omit ha in
theorem getD_affL (x : List K) (i : ℕ) (h : i < x.length) : (affL a b x).getD i 0 = a i * x.getD i 0 + b i := by
  simp [affL, List.getD, h]

omit ha in
theorem column_aff (i : ℕ) : ∀ (pts : List (List K)), (∀ x ∈ pts, i < x.length) → (column i (pts.map (affL a b))).sum = a i * (column i pts).sum + b i * pts.length
  | [], _ => by simp [column]
  | x :: pts, h => by
    have ih := column_aff i pts fun y hy => h y (List.mem_cons_of_mem _ hy)
    have hx := getD_affL a b x i (h x List.mem_cons_self)
    simp only [column, List.map_cons, List.sum_cons, List.length_cons] at ih ⊢
    rw [ih, hx]; push_cast; ring

theorem centroidCoord_aff (pts : List (List K)) (i j : ℕ) (e : K) (q : K × K) (h : ∀ x ∈ pts, i < x.length) (hj : j < pts.length) :
    centroidCoord (pts.map (affL a b)) i j e (a i * q.1 + b i, a i * q.2 + b i) = a i * centroidCoord pts i j e q + b i := by
  have hn : (pts.length : K) ≠ 0 := by
    rw [Nat.cast_ne_zero]; omega
  have h1 : ((pts.map (affL a b)).getD j []).getD i 0 = a i * (pts.getD j []).getD i 0 + b i := by
    have : (pts.map (affL a b)).getD j [] = affL a b (pts.getD j []) := by simp [List.getD, hj]
    rw [this, getD_affL]
    apply h
    simp [List.getD, hj]
  unfold centroidCoord
  dsimp only
  rw [h1, column_aff a b i pts h, List.length_map, ← clip_aff _ _ _ _ _ (ha i)]
  congr 1
  field_simp
  ring

/-- All the points of a list have at least `d` coordinates. -/
def Wide (d : ℕ) (t : Option (List (List K))) : Prop := ∀ l, t = some l → ∀ x ∈ l, d ≤ x.length

/-- The points stored in the proposer have as many coordinates as there are bounds. -/
def Wf : Proposer K → Prop
  | .part _ _ p => Wf p
  | .centroids B t t' => Wide B.length t ∧ Wide B.length t'
  | _ => True

omit ha in
theorem subset_aff {G : Type*} (R : Rng K G) (d : ℕ) (t t' : Option (List (List K))) (g : G)
    (hR : ∀ n m g, m ≤ n → (R.choice n m g).1.length = m ∧ ∀ j ∈ (R.choice n m g).1, j < n) (h : Wide d t) (h' : Wide d t') :
    subset (convRng a b R) d (t.map (List.map (affL a b))) (t'.map (List.map (affL a b))) g = ((subset R d t t' g).1.map (List.map (affL a b)), (subset R d t t' g).2) ∧
    ∀ pts, (subset R d t t' g).1 = .ok pts → pts.length = d + 1 ∧ ∀ x ∈ pts, d ≤ x.length := by
  have key : ∀ (l : List (List K)) (g : G), d + 1 ≤ l.length → (∀ x ∈ l, d ≤ x.length) →
      (((R.choice l.length (d + 1) g).1.map fun j => (l.map (affL a b)).getD j []) = ((R.choice l.length (d + 1) g).1.map fun j => l.getD j []).map (affL a b)) ∧
      ((R.choice l.length (d + 1) g).1.map fun j => l.getD j []).length = d + 1 ∧ ∀ x ∈ ((R.choice l.length (d + 1) g).1.map fun j => l.getD j []), d ≤ x.length := by
    intro l g hl hw
    obtain ⟨h1, h2⟩ := hR l.length (d + 1) g hl
    refine ⟨?_, by simp [h1], ?_⟩
    · rw [List.map_map]
      apply List.map_congr_left
      intro j hj
      simp [List.getD, h2 j hj]
    · intro x hx
      obtain ⟨j, hj, rfl⟩ := List.mem_map.1 hx
      apply hw
      simp [List.getD, h2 j hj]
  unfold subset
  cases t' with
  | none => exact ⟨rfl, fun pts hp => by simp at hp⟩
  | some l' =>
    simp only [Option.map_some, List.length_map, convRng]
    by_cases h1 : d + 1 ≤ l'.length
    · obtain ⟨e, hl, hw⟩ := key l' g h1 (h' l' rfl)
      simp only [h1, if_true, e]
      exact ⟨rfl, fun pts hp => by simp only [Except.ok.injEq] at hp; subst hp; exact ⟨hl, hw⟩⟩
    · simp only [h1, if_false]
      cases t with
      | none => exact ⟨rfl, fun pts hp => by simp at hp⟩
      | some l =>
        simp only [Option.map_some, List.length_map]
        by_cases h2 : d + 1 ≤ l.length
        · obtain ⟨e, hl, hw⟩ := key l g h2 (h l rfl)
          simp only [h2, if_true, e]
          exact ⟨rfl, fun pts hp => by simp only [Except.ok.injEq] at hp; subst hp; exact ⟨hl, hw⟩⟩
        · simp only [h2, if_false]
          exact ⟨rfl, fun pts hp => by simp at hp⟩

/-- **C144**, proposal.py: with the same random numbers, all the proposers propose the same point in the new units, or raise the same exception. -/
theorem C144_proposal {G : Type*} (R : Rng K G) (hR : ∀ n m g, m ≤ n → (R.choice n m g).1.length = m ∧ ∀ j ∈ (R.choice n m g).1, j < n) (fuel : ℕ) :
    ∀ (p : Proposer K) (g : G), Wf p → (convP a b p).get (convRng a b R) fuel g = (p.get R fuel g).map fun q => (q.1.map (affX a b), q.2)
  | .checked tag B, g, _ => by
    simp only [convP, Proposer.get, checkLoop_aff a b ha, Option.map_map, Function.comp_def, Except.map]
  | .uniform B, g, _ => by
    simp only [convP, Proposer.get, uniformPoint_aff, map_fin_affL, Option.map_some, Except.map]
    simp [convRng, affBox]
  | .part B rpf p, g, h => by
    simp only [convP, Proposer.get, uniformPoint_aff, map_fin_affL]
    have ih := C144_proposal R hR fuel p (R.coin g).2 h
    simp only [show (convRng a b R).coin = R.coin from rfl, show (convRng a b R).unif = R.unif from rfl, show (affBox a b B).length = B.length by simp [affBox], ih]
    split_ifs <;> rfl
  | .centroids B t t', g, h => by
    have hB : (affBox a b B).length = B.length := by simp [affBox]
    obtain ⟨e, hs⟩ := subset_aff a b R B.length t t' g hR h.1 h.2
    simp only [convP, Proposer.get, hB, e]
    rcases hsub : subset R B.length t t' g with ⟨_ | pts, g'⟩
    · rfl
    · obtain ⟨hl, hw⟩ := hs pts (by rw [hsub])
      obtain ⟨c1, c2⟩ := hR (B.length + 1) B.length g' (Nat.le_succ _)
      simp only [Except.map, Option.map_some, show (convRng a b R).choice = R.choice from rfl, show (convRng a b R).expon = R.expon from rfl, Option.some.injEq, Prod.mk.injEq,
        Except.ok.injEq, and_true]
      apply List.ext_getElem
      · simp [affX]
      · intro i h1 h2
        have hi : i < B.length := by simpa using h1
        simp only [List.getElem_map, List.getElem_range, affX, List.getElem_mapIdx, affE]
        have eB : (affBox a b B).getD i (0, 0) = (a i * (B.getD i (0, 0)).1 + b i, a i * (B.getD i (0, 0)).2 + b i) := by simp [affBox, List.getD, hi]
        rw [eB, centroidCoord_aff a b ha pts i _ _ _ (fun x hx => lt_of_lt_of_le hi (hw x hx)) ?_]
        rw [hl]
        apply c2
        simp [List.getD, c1, hi]

end

/-! ## Without `Normalize_bounds`, and each theorem applied to concrete data -/

section
open Predict Gp Kernels AcqPts

theorem exStd_rawVar2 : (exStd.M.data exStd.R).rawVar exStd.chol exStd.M.k (fun _ => 2) = 1 - Real.exp (-4) / 2 := by
  unfold Data.rawVar
  dsimp only
  rw [exStd_V]
  have hk : (exStd.M.data exStd.R).kTrans exStd.M.k (fun _ => 2) 0 = Real.exp (-2) := by
    simp [Data.kTrans, exStd, Model.data, KExpr.eval, sqDist]; norm_num
  have hkk : exStd.M.k (fun _ => 2) (fun _ => 2) = 1 := by simp [exStd, KExpr.eval, sqDist]
  have he : Real.exp (-2) * Real.exp (-2) = Real.exp (-4) := by rw [← Real.exp_add]; norm_num
  rw [hkk]
  simp only [dotProduct, Matrix.mulVec, Finset.univ_unique, Fin.default_eq_zero, Finset.sum_singleton, Matrix.of_apply, hk]
  have h2 : Real.sqrt 2 * Real.sqrt 2 = 2 := Real.mul_self_sqrt (by norm_num)
  have : (Real.sqrt 2)⁻¹ * Real.exp (-2) * ((Real.sqrt 2)⁻¹ * Real.exp (-2)) =
      (Real.sqrt 2 * Real.sqrt 2)⁻¹ * (Real.exp (-2) * Real.exp (-2)) := by rw [mul_inv]; ring
  rw [this, h2, he]
  ring

/-- **C144** is false with `preprocessing_X=None`: with the same hyperparameters, the predictions change with the units. -/
theorem C144_none_counterexample : exStd.M.trX = id ∧
    (convG (fun _ => 2) (fun _ => 0) id exStd).M.std exStd.chol (convG (fun _ => 2) (fun _ => 0) id exStd).R (aff (fun _ => 2) (fun _ => 0) fun _ => 1) ≠
      exStd.M.std exStd.chol exStd.R fun _ => 1 := by
  refine ⟨rfl, ?_⟩
  have hR : (convG (fun _ => 2) (fun _ => 0) id exStd).R = exStd.R := by
    have : aff (fun _ => (2 : ℝ)) (fun _ => 0) (fun _ : Fin 1 => (0 : ℝ)) = fun _ => 0 := by funext i; simp [aff]
    simp [convG, exStd, this]
  have hM : (convG (fun _ => 2) (fun _ => 0) id exStd).M = exStd.M := rfl
  have hx : aff (fun _ => (2 : ℝ)) (fun _ => 0) (fun _ : Fin 1 => (1 : ℝ)) = fun _ => 2 := by funext i; simp [aff]
  rw [hR, hM, hx]
  unfold Model.std Data.std
  dsimp only
  rw [show exStd.M.trX (fun _ => 2) = fun _ => 2 from rfl, show exStd.M.trX (fun _ => 1) = fun _ => 1 from rfl, exStd_rawVar2, exStd_rawVar]
  have h1 : Real.exp (-1) < 1 := by rw [Real.exp_lt_one_iff]; norm_num
  have h4 : Real.exp (-4) < Real.exp (-1) := Real.exp_lt_exp.2 (by norm_num)
  rw [if_neg (by linarith), if_neg (by linarith)]
  have := Real.sqrt_lt_sqrt (show 0 ≤ 1 - Real.exp (-1) / 2 by linarith) (show 1 - Real.exp (-1) / 2 < 1 - Real.exp (-4) / 2 by linarith)
  have hs : (0 : ℝ) < exStd.M.s := by simp [exStd]
  exact (mul_lt_mul_of_pos_right this hs).ne'

/-- From kilometres to metres, with another origin. -/
noncomputable def exT : (Fin 1 → ℝ) → Fin 1 → ℝ := fun x i => (x i - 5) / 1000

theorem exT_ok (st : St 1 1) (h : st.M.trX = id) (x : Fin 1 → ℝ) : exT (aff (fun _ => 1000) (fun _ => 5) x) = st.M.trX x := by
  rw [h]; funext i; simp [exT, aff]

example (X : List (Fin 1 → ℝ)) : (convG (fun _ => 1000) (fun _ => 5) exT exG.st).predict (X.map (aff (fun _ => 1000) (fun _ => 5))) false = exG.st.predict X false :=
  C144_predict _ _ (fun _ => by norm_num) exT exG.st (exT_ok _ rfl) rfl X false

/-- The trust region of the example in metres. -/
example : (convG (fun _ => 1000) (fun _ => 5) exT exG.st).trust = some fun _ => (-495, 505) := by
  simp only [convG, exG, affB, Option.map_some, Option.some.injEq]
  funext i; norm_num [affB]

example (X : List (Fin 1 → ℝ)) : (convG (fun _ => 1000) (fun _ => 5) exT exG.st).predictStd (X.map (aff (fun _ => 1000) (fun _ => 5))) = exG.st.predictStd X :=
  C144_std _ _ (fun _ => by norm_num) exT exG.st (exT_ok _ rfl) rfl X

example (pw : ℝ → Ext ℝ → Ext ℝ) (X : List (Fin 1 → ℝ)) :
    (Af.sum (.leaf (.logExp 1 none)) (.leaf (.mu 1))).eval normCdf normPdf pw ⟨convG (fun _ => 1000) (fun _ => 5) exT exG.st, exG.noise, exG.yMax, fun _ => true⟩ (X.map (aff (fun _ => 1000) (fun _ => 5))) =
      (Af.sum (.leaf (.logExp 1 none)) (.leaf (.mu 1))).eval normCdf normPdf pw exG X :=
  C144_acquisition _ _ (fun _ => by norm_num) exT exG.st (exT_ok _ rfl) _ _ pw rfl _ _ _ _ (fun _ => rfl) X _

example (x : Fin 1 → ℝ) : (convG (fun _ => 1000) (fun _ => 5) exT exG.st).predictGrad (fun _ _ => 0) (.rbf fun _ => 1) (aff (fun _ => 1000) (fun _ => 5) x) =
    exG.st.predictGrad (fun _ _ => 0) (.rbf fun _ => 1) x :=
  C144_gradient_same _ _ exT exG.st (exT_ok _ rfl) _ _ x

/-- A linear kernel with one training point; the mean is `x / 2`. -/
noncomputable def exLin : St 1 1 :=
  { exStd with M := ⟨fun x y => x 0 * y 0, id, 0, 1⟩, R := ⟨fun _ _ => 1, fun _ => 1, fun _ => 1⟩ }

theorem exLin_mean (x : Fin 1 → ℝ) : exLin.M.mean exLin.chol exLin.R x = x 0 / 2 := by
  have hk : (exLin.M.data exLin.R).kmat exLin.M.k 0 0 = 2 := by simp [Data.kmat, exLin, Model.data]; norm_num
  have hL : exLin.chol ((exLin.M.data exLin.R).kmat exLin.M.k) * (exLin.chol ((exLin.M.data exLin.R).kmat exLin.M.k)).transpose = Matrix.of fun _ _ => 2 := by
    ext i j
    fin_cases i; fin_cases j
    show (chol1 _ * (chol1 _).transpose) 0 0 = 2
    simp only [Matrix.mul_apply, Finset.univ_unique, Fin.default_eq_zero, Finset.sum_singleton, Matrix.transpose_apply, chol1, Matrix.of_apply, Fin.isValue, hk]
    exact Real.mul_self_sqrt (by norm_num)
  have hI : (Matrix.of fun _ _ => 2 : Matrix (Fin 1) (Fin 1) ℝ)⁻¹ = Matrix.of fun _ _ => 1 / 2 := by
    apply Matrix.inv_eq_left_inv
    ext i j
    fin_cases i; fin_cases j
    simp [Matrix.mul_apply]
  have hA : ((exLin.M.data exLin.R).update exLin.chol exLin.M.k).alpha = fun _ => 1 / 2 := by
    show (exLin.chol ((exLin.M.data exLin.R).kmat exLin.M.k) * (exLin.chol ((exLin.M.data exLin.R).kmat exLin.M.k)).transpose)⁻¹.mulVec _ = _
    rw [hL, hI]
    funext i
    simp [Matrix.mulVec, dotProduct, exLin, Model.data]
  unfold Model.mean Data.mean
  rw [hA]
  simp [dotProduct, Data.kTrans, exLin, Model.data]
  ring

example : ¬ HasDerivAt (fun s => (convG (fun _ => 1000) (fun _ => 5) exT exLin).M.mean exLin.chol (convG (fun _ => 1000) (fun _ => 5) exT exLin).R
    (Function.update (aff (fun _ => 1000) (fun _ => 5) fun _ => 3) 0 s)) (1 / 2) (aff (fun _ => 1000) (fun _ => 5) (fun _ : Fin 1 => 3) 0) := by
  refine C144_gradient_counterexample _ _ exT exLin (exT_ok _ rfl) (fun _ => 3) 0 (1 / 2) (by norm_num) (by norm_num) ?_
  simp only [exLin_mean, Function.update_self]
  simpa using (hasDerivAt_id (3 : ℝ)).div_const 2

end

section

/-- As in C143, with `Normalize_bounds`, in one dimension. -/
def exCfg : Cfg (Fin 1 → ℚ) (Pre.NormBounds 1 ℚ) ℕ ℚ :=
  { useSvm := true, keepMin := 1, thr := .fin 20, eps := 1 / 1000000, fitX := fun B _ _ => B, trX := fun B x i => (x i - B.lo i) / (B.hi i - B.lo i),
    fitY := fun _ _ ys => Pre.chi2Fit 2 ys, nRestarts := 1,
    canOptimise := true, optimise := fun xs ys _ _ _ => xs.length + ys.countP fun y => y.lt (.fin 0), cholOk := fun _ _ _ => true }

abbrev km : (Fin 1 → ℚ) → Fin 1 → ℚ := aff (fun _ => 1000) fun _ => 5
abbrev kmB : Pre.NormBounds 1 ℚ → Pre.NormBounds 1 ℚ := affN (fun _ => 1000) fun _ => 5

theorem exCfg_ok : Equivariant exCfg km kmB := C144_preprocessors exCfg _ _ (fun _ => by norm_num) rfl rfl (fun _ ys => Pre.chi2Fit 2 ys) rfl

/-- Two batches; the point 4 is classified as infinite. -/
def exCalls : List (Call (Fin 1 → ℚ) ℚ) := [{ batch := some ([fun _ => 1, fun _ => 2], [.fin (-1), .fin (-3)]) }, { batch := some ([fun _ => 3, fun _ => 4], [.fin (-2), .fin (-50)]), fit := .no }]

def exInit : State (Fin 1 → ℚ) (Pre.NormBounds 1 ℚ) ℕ ℚ := State.init ⟨fun _ => 0, fun _ => 4⟩ .unfitted (.scalar (1 / 10))

example : (run exCfg exInit exCalls).map (fun st => (st.xTrain.map (· 0), st.xTrain'.map (· 0), st.yTrain, st.theta)) =
    some ([1, 2, 3], [1 / 4, 1 / 2, 3 / 4], [.fin (-1), .fin (-3), .fin (-2)], some 2) := by decide +kernel

example : (run exCfg (conv km kmB exInit) (exCalls.map (convC km))).map (fun st => (st.xTrain.map (· 0), st.xTrain'.map (· 0), st.yTrain, st.theta)) =
    some ([1005, 2005, 3005], [1 / 4, 1 / 2, 3 / 4], [.fin (-1), .fin (-3), .fin (-2)], some 2) := by decide +kernel

example (q : Call (Fin 1 → ℚ) ℚ) (st : State (Fin 1 → ℚ) (Pre.NormBounds 1 ℚ) ℕ ℚ) :
    append exCfg (conv km kmB st) (convC km q) = (conv km kmB (append exCfg st q).1, (append exCfg st q).2) :=
  C144_append exCfg km kmB exCfg_ok st q

example : run exCfg (conv km kmB exInit) (exCalls.map (convC km)) = (run exCfg exInit exCalls).map (conv km kmB) := C144_history exCfg km kmB exCfg_ok _ _

example (x : Fin 1 → ℚ) : (affN (fun _ => 1000) (fun _ => 5) ⟨fun _ => 3, fun _ => 3⟩).transform (aff (fun _ => 1000) (fun _ => 5) x) =
    (⟨fun _ => 3, fun _ => 3⟩ : Pre.NormBounds 1 ℚ).transform x := (C144_bounds _ _ (fun _ => by norm_num) _ x x).1

/-- The trust region of three points, in both units. -/
example : (Trust.updateTrust (fun x : ℚ => x) (fun _ : Fin 1 => (0, 10)) (some 2) none [(fun _ => 2, -1), (fun _ => 4, -2), (fun _ => 3, -50)] none 10).map
    (fun r => r.map fun o => o.map (· 0)) = some (.ok (some (1, 5))) := by decide +kernel

example : (Trust.updateTrust (fun x : ℚ => x) (affB (fun _ => 1000) (fun _ => 5) fun _ : Fin 1 => (0, 10)) (some 2) none
      ([(fun _ => 2, -1), (fun _ => 4, -2), (fun _ => 3, -50)].map fun q => (km q.1, q.2)) none 10).map
    (fun r => r.map fun o => o.map (· 0)) = some (.ok (some (1005, 5005))) := by
  have := C144_trust (fun x : ℚ => x) (fun _ : Fin 1 => 1000) (fun _ => 5) (fun _ => by norm_num) (fun _ => (0, 10)) (some 2) none [(fun _ => 2, -1), (fun _ => 4, -2), (fun _ => 3, -50)] none 10
  rw [show (Option.map (affB (fun _ : Fin 1 => (1000 : ℚ)) fun _ => 5) none) = none from rfl] at this
  rw [this]
  decide +kernel

example (ex : ℚ → ℚ) : Cov.fromEvals ex [km fun _ => 0, km fun _ => 1, km fun _ => 2] [.fin 0, .fin (-1), .negInf] =
    (Cov.fromEvals ex [fun _ : Fin 1 => 0, fun _ => 1, fun _ => 2] [.fin 0, .fin (-1), .negInf]).map (affM (fun _ => 1000) fun _ => 5) :=
  C144_evals ex _ _ (fun _ => by norm_num) [fun _ : Fin 1 => 0, fun _ => 1, fun _ => 2] _

def exDraw : ℕ → ℕ → ℕ → (Fin 1 → ℚ) × Ext ℚ := fun i r j => (fun _ => (i + 10 * r + j : ℕ), .fin (-((i + 10 * r + j : ℕ) * (i + 10 * r + j : ℕ))))

example : Run.initialTraining exCfg 2 4 20 1 (fun i r j => (km (exDraw i r j).1, (exDraw i r j).2)) (conv km kmB exInit) =
    (Run.initialTraining exCfg 2 4 20 1 exDraw exInit).map fun r => (r.1.map fun q => (km q.1, q.2), conv km kmB r.2) :=
  C144_initial exCfg km kmB exCfg_ok 2 4 20 1 exDraw exInit

/-- The acquisition proposes the mean of the training set; convergence when the new point is not in the training set. -/
def exAcq (g : State (Fin 1 → ℚ) (Pre.NormBounds 1 ℚ) ℕ ℚ) : List (Fin 1 → ℚ) := match g.xAll with
  | x :: y :: _ => [fun i => (x i + y i) / 2]
  | _ => []

theorem exAcq_ok (g : State (Fin 1 → ℚ) (Pre.NormBounds 1 ℚ) ℕ ℚ) : exAcq (conv km kmB g) = (exAcq g).map km := by
  unfold exAcq
  rw [show (conv km kmB g).xAll = g.xAll.map km from rfl]
  rcases g.xAll with _ | ⟨x, _ | ⟨y, l⟩⟩
  · rfl
  · rfl
  · simp only [List.map_cons, List.map_nil, List.cons.injEq, and_true]
    funext i
    simp only [km, aff]
    ring

example (fuel : ℕ) (g : State (Fin 1 → ℚ) (Pre.NormBounds 1 ℚ) ℕ ℚ) :
    Run.runLoop ⟨4, 20, 40, 40, 2, 2, 1, 2⟩ true (nTotal exCfg) (fun g => g.yTrain.length)
        (Shift.step exCfg (fun x => .fin (-((x 0 - 5) / 1000) ^ 2)) (fun _ => exAcq) (fun i => if i % 2 = 0 then .no else .yes none)
          (fun _ g g' => decide (g'.yTrain.length = g.yTrain.length)) (fun _ _ _ => true)) fuel (conv km kmB g) =
      (Run.runLoop ⟨4, 20, 40, 40, 2, 2, 1, 2⟩ true (nTotal exCfg) (fun g => g.yTrain.length)
        (Shift.step exCfg (fun x => .fin (-(x 0) ^ 2)) (fun _ => exAcq) (fun i => if i % 2 = 0 then .no else .yes none)
          (fun _ g g' => decide (g'.yTrain.length = g.yTrain.length)) (fun _ _ _ => true)) fuel g).map
        fun r => ({ r.1 with gpr := conv km kmB r.1.gpr, evals := r.1.evals.map km }, r.2) :=
  C144_loop_partial exCfg km kmB exCfg_ok _ _ (fun x => by simp [km, aff]) _ _ _ _ _ _ _ (fun _ g => exAcq_ok g) (fun _ _ _ => rfl) (fun _ _ _ => rfl) _ true fuel g

/-- The centroids of the C44 example, in metres. -/
example : (convP (fun _ => 1000) (fun _ => 5) (((Proposal.Proposer.centroids [(0, 1)] none none).update [[0], [4]]).updateBounds [(0, 5 / 2)])).get
    (convRng (fun _ => 1000) (fun _ => 5) Proposal.exRng) 5 [] = some (.ok [.fin 5], []) := by
  rw [C144_proposal (fun _ => (1000 : ℚ)) (fun _ => 5) (fun _ => by norm_num) Proposal.exRng ?_ 5 _ [] ?_]
  · decide +kernel
  · intro n m g h
    exact ⟨by simp [Proposal.exRng], fun j hj => by simp [Proposal.exRng] at hj; omega⟩
  · simp [Proposal.Proposer.update, Proposal.Proposer.updateBounds, Wf, Wide]

end

end GPry.Units
