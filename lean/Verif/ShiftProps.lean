import Verif.Preproc
import Verif.Run
import Verif.Trust
import Verif.Conv
import Verif.Cov
import Mathlib.Tactic.FieldSimp
import Mathlib.Tactic.Ring
import Mathlib.Tactic.Linarith

set_option linter.all false

/-!
# Adding a constant to the log-posterior: C143

`shift c` adds the constant `c` to a log-posterior value (infinities and NaN stay what they are).
-/

namespace GPry.Shift

open GPry

variable {K : Type*} [Field K] [LinearOrder K] [IsStrictOrderedRing K]

/-- The value of a log-posterior with `c` added. -/
def shift (c : K) (y : Ext K) : Ext K := y.addFin c

@[simp] theorem shift_fin (c a : K) : shift c (.fin a) = .fin (a + c) := rfl
@[simp] theorem shift_negInf (c : K) : shift c .negInf = .negInf := rfl
@[simp] theorem shift_posInf (c : K) : shift c .posInf = .posInf := rfl
@[simp] theorem shift_nan (c : K) : shift c .nan = .nan := rfl

@[simp] theorem isFinite_shift (c : K) (y : Ext K) : (shift c y).isFinite = y.isFinite := by cases y <;> rfl
@[simp] theorem isNan_shift (c : K) (y : Ext K) : (shift c y).isNan = y.isNan := by cases y <;> rfl

@[simp] theorem le_shift (c : K) (a b : Ext K) : (shift c a).le (shift c b) = a.le b := by
  cases a <;> cases b <;> simp [Ext.le]

@[simp] theorem lt_shift (c : K) (a b : Ext K) : (shift c a).lt (shift c b) = a.lt b := by
  cases a <;> cases b <;> simp [Ext.lt]

@[simp] theorem sortLe_shift (c : K) (a b : Ext K) : (shift c a).sortLe (shift c b) = a.sortLe b := by
  cases a <;> cases b <;> simp [Ext.sortLe, Ext.le]

@[simp] theorem sub_shift (c : K) (a b : Ext K) : (shift c a).sub (shift c b) = a.sub b := by
  cases a <;> cases b <;> simp [Ext.sub]

@[simp] theorem shift_sub (c : K) (a b : Ext K) : (shift c a).sub b = shift c (a.sub b) := by
  cases a <;> cases b <;> simp [Ext.sub]
  ring

theorem subFin_shift (c m : K) (a : Ext K) : (shift c a).subFin (m + c) = a.subFin m := by
  cases a <;> simp [Ext.subFin]

theorem pyMax2_shift (c : K) (a b : Ext K) : Ext.pyMax2 (shift c a) (shift c b) = shift c (Ext.pyMax2 a b) := by
  unfold Ext.pyMax2 Ext.gt
  rw [lt_shift]
  split_ifs <;> rfl

theorem npMax2_shift (c : K) (a b : Ext K) : Ext.npMax2 (shift c a) (shift c b) = shift c (Ext.npMax2 a b) := by
  unfold Ext.npMax2
  rw [lt_shift, isNan_shift, isNan_shift]
  split_ifs <;> rfl

theorem foldl_shift (c : K) (f : Ext K → Ext K → Ext K) (hf : ∀ a b, f (shift c a) (shift c b) = shift c (f a b)) :
    ∀ (l : List (Ext K)) (a : Ext K), (l.map (shift c)).foldl f (shift c a) = shift c (l.foldl f a)
  | [], a => rfl
  | b :: l, a => by simp only [List.map_cons, List.foldl_cons, hf, foldl_shift c f hf l]

theorem pyMax_shift (c : K) (l : List (Ext K)) : Ext.pyMax (l.map (shift c)) = (Ext.pyMax l).map (shift c) := by
  cases l with
  | nil => rfl
  | cons a l => simp only [Ext.pyMax, List.map_cons, foldl_shift c _ (pyMax2_shift c), Option.map_some]

theorem npMax_shift (c : K) (l : List (Ext K)) : Ext.npMax (l.map (shift c)) = (Ext.npMax l).map (shift c) := by
  cases l with
  | nil => rfl
  | cons a l => simp only [Ext.npMax, List.map_cons, foldl_shift c _ (npMax2_shift c), Option.map_some]

theorem sort_shift (c : K) (l : List (Ext K)) : Ext.sort (l.map (shift c)) = (Ext.sort l).map (shift c) := by
  unfold Ext.sort
  exact (List.map_insertionSort _ _ (shift c) l (fun a _ b _ => by simp)).symm

/-! ## The regressor -/

open Gpr

variable {P PX Θ : Type*}

def shiftP (c : K) : PreY K → PreY K
  | .unfitted => .unfitted
  | .aff m s => .aff (m + c) s
  | .nanAff => .nanAff

/-- The regressor with `c` added to the log-posterior: the stored targets and the mean of the target preprocessor change. -/
def shiftS (c : K) (st : State P PX Θ K) : State P PX Θ K :=
  { st with yAll := st.yAll.map (shift c), yTrain := st.yTrain.map (shift c), py := shiftP c st.py }

def shiftC (c : K) (q : Call P K) : Call P K := { q with batch := q.batch.map fun b => (b.1, b.2.map (shift c)) }

/-- What is needed of the preprocessors: that of the points does not see the constant, that of the targets takes it up. -/
structure Equivariant (cfg : Cfg P PX Θ K) (c : K) : Prop where
  fitX : ∀ px xs ys, cfg.fitX px xs (ys.map (shift c)) = cfg.fitX px xs ys
  fitY : ∀ q xs ys, cfg.fitY (shiftP c q) xs (ys.map (shift c)) = (cfg.fitY q xs ys).map (shiftP c)

theorem transform_shift (c : K) (q : PreY K) (y : Ext K) : (shiftP c q).transform (shift c y) = q.transform y := by
  cases q <;> simp [shiftP, PreY.transform, subFin_shift]

theorem transformScale_shift (c : K) (q : PreY K) (y : Ext K) : (shiftP c q).transformScale y = q.transformScale y := by
  cases q <;> rfl

theorem mapE_shift (c : K) (q : PreY K) : ∀ l : List (Ext K), mapE (shiftP c q).transform (l.map (shift c)) = mapE q.transform l
  | [] => rfl
  | a :: l => by simp only [mapE, List.map_cons, transform_shift, mapE_shift c q l]

theorem mapE_scale_shift (c : K) (q : PreY K) (l : List (Ext K)) : mapE (shiftP c q).transformScale l = mapE q.transformScale l := by
  have : (shiftP c q).transformScale = q.transformScale := funext (transformScale_shift c q)
  rw [this]

theorem maskL_map {α β : Type*} (f : α → β) : ∀ (m : List Bool) (l : List α), maskL m (l.map f) = (maskL m l).map f
  | [], l => by cases l <;> rfl
  | true :: m, [] => rfl
  | false :: m, [] => rfl
  | true :: m, a :: l => by simp only [maskL, List.map_cons, maskL_map f m l]
  | false :: m, a :: l => by simp only [maskL, List.map_cons, maskL_map f m l]

theorem isFiniteRaw_shift (c : K) (thr m y : Ext K) : isFiniteRaw thr (shift c m) (shift c y) = isFiniteRaw thr m y := by
  simp only [isFiniteRaw, Ext.ge, shift_sub, le_shift, isFinite_shift]

theorem isFiniteAll_shift (c : K) (thr : Ext K) (l : List (Ext K)) : isFiniteAll thr (l.map (shift c)) = isFiniteAll thr l := by
  unfold isFiniteAll
  rw [npMax_shift]
  cases Ext.npMax l with
  | none => rfl
  | some m => simp only [Option.map_some, List.map_map, Function.comp_def, isFiniteRaw_shift]

theorem diffThreshold_shift (c eps : K) (l : List (Ext K)) (n : ℕ) (ref : Ext K) :
    diffThresholdKeepN eps (l.map (shift c)) n ref = diffThresholdKeepN eps l n ref := by
  unfold diffThresholdKeepN
  simp only [sort_shift, List.length_map, List.getLast?_map, List.getElem?_map]
  split_ifs
  · rfl
  · cases h1 : (Ext.sort l).getLast? <;> cases h2 : (Ext.sort l)[(Ext.sort l).length - min n (Ext.sort l).length]? <;> simp [sub_shift]
    rw [← shift_sub, sub_shift]

/-- A result with the state shifted. -/
def shiftR {E : Type*} (c : K) (r : State P PX Θ K × E) : State P PX Θ K × E := (shiftS c r.1, r.2)

theorem updateModel_shift (cfg : Cfg P PX Θ K) (c : K) (st : State P PX Θ K) : updateModel cfg (shiftS c st) = shiftR c (updateModel cfg st) := by
  show (if st.newly < 1 then (shiftS c st, none) else match st.theta with
    | none => (shiftS c st, some Gpr.Err.typeError)
    | some th =>
      if !(st.noiseVar.all Ext.isFinite && st.yTrain'.all Ext.isFinite) then (shiftS c st, some Gpr.Err.valueError)
      else if !cfg.cholOk st.xTrain' st.noiseVar th then (shiftS c st, some Gpr.Err.linAlgError)
      else ({ shiftS c st with factors := some ⟨st.xTrain', st.yTrain', st.noiseVar, th⟩, newly := 0 }, none)) = _
  unfold updateModel
  by_cases h1 : st.newly < 1
  · rw [if_pos h1, if_pos h1]; rfl
  · rw [if_neg h1, if_neg h1]
    cases h2 : st.theta with
    | none => rfl
    | some th =>
      dsimp only
      by_cases h3 : (!(st.noiseVar.all Ext.isFinite && st.yTrain'.all Ext.isFinite)) = true
      · rw [if_pos h3, if_pos h3]; rfl
      · rw [if_neg h3, if_neg h3]
        by_cases h4 : (!cfg.cholOk st.xTrain' st.noiseVar th) = true
        · rw [if_pos h4, if_pos h4]; rfl
        · rw [if_neg h4, if_neg h4]; simp [shiftR, shiftS, h2]

theorem fitHyper_shift (cfg : Cfg P PX Θ K) (c : K) (n : Option ℕ) (st : State P PX Θ K) : fitHyper cfg n (shiftS c st) = shiftR c (fitHyper cfg n st) := by
  unfold fitHyper
  by_cases h1 : n.getD cfg.nRestarts = 0 ∨ cfg.canOptimise = false
  · rw [if_pos h1, if_pos h1]
    show (match st.theta with
      | none => (shiftS c st, some Gpr.Err.attributeError)
      | some _ => updateModel cfg (shiftS c st)) = _
    cases h2 : st.theta with
    | none => rfl
    | some th => exact updateModel_shift cfg c st
  · rw [if_neg h1, if_neg h1]
    by_cases h2 : st.xTrain'.isEmpty = true
    · rw [if_pos h2, if_pos (show (shiftS c st).xTrain'.isEmpty = true from h2)]; rfl
    · rw [if_neg h2, if_neg (show ¬ (shiftS c st).xTrain'.isEmpty = true from h2)]
      have := updateModel_shift cfg c { st with theta := some (cfg.optimise st.xTrain' st.yTrain' st.noiseVar st.theta (n.getD cfg.nRestarts)) }
      show (match updateModel cfg (shiftS c { st with theta := some (cfg.optimise st.xTrain' st.yTrain' st.noiseVar st.theta (n.getD cfg.nRestarts)) }) with
        | (st', some e) => (st', some e)
        | (st', none) => ({ st' with fitted := true }, none)) = _
      rw [this]
      dsimp only
      rcases updateModel cfg { st with theta := some (cfg.optimise st.xTrain' st.yTrain' st.noiseVar st.theta (n.getD cfg.nRestarts)) } with ⟨st', _ | e⟩ <;> rfl

theorem appendFit_shift (cfg : Cfg P PX Θ K) (c : K) (st : State P PX Θ K) (q : Call P K) (mask : List Bool) (noise : List (Ext K)) :
    appendFit cfg (shiftS c st) (shiftC c q) mask noise = shiftR c (appendFit cfg st q mask noise) := by
  unfold appendFit
  simp only [show (shiftS c st).yAll = st.yAll.map (shift c) from rfl, show (shiftS c st).py = shiftP c st.py from rfl, maskL_map, mapE_shift]
  cases h1 : mapE st.py.transform (maskL mask st.yAll) with
  | error e => simp only [h1]; rfl
  | ok y' =>
    simp only [h1]
    cases h2 : maskChecked mask noise with
    | error e => rfl
    | ok nv =>
      simp only [show (shiftC c q).fit = q.fit from rfl]
      have e : ∀ z : State P PX Θ K, z = { st with xTrain := maskL mask st.xAll, yTrain := maskL mask st.yAll, xTrain' := (maskL mask st.xAll).map (cfg.trX st.px), yTrain' := y', noiseVar := nv.map Ext.sq, newly := st.nLastFinite } →
          (match q.fit with | .yes n => fitHyper cfg n (shiftS c z) | _ => updateModel cfg (shiftS c z)) =
          shiftR c (match q.fit with | .yes n => fitHyper cfg n z | _ => updateModel cfg z) := by
        intro z _
        cases q.fit with
        | yes n => exact fitHyper_shift cfg c n _
        | no => exact updateModel_shift cfg c _
        | invalid => exact updateModel_shift cfg c _
      exact e _ rfl

/-- gpr.py:708-741, the second part of `appendMid`. -/
def tail (cfg : Cfg P PX Θ K) (st : State P PX Θ K) (c : Call P K) (fitClf : Bool) (thrKeep : Ext K) (mask : List Bool) (r : Except Gpr.Err (PreY K)) :
    State P PX Θ K × Option Gpr.Err :=
  match r with
  | .error e => (st, some e)
  | .ok py =>
    match mapE py.transform st.yAll with
    | .error e => ({ st with py := py }, some e)
    | .ok yAll' =>
      match mapE py.transformScale (match st.noise with
        | .scalar s => List.replicate yAll'.length (.fin s)
        | .array ks => ks.map .fin) with
      | .error e => ({ st with py := py }, some e)
      | .ok noise' =>
        match (if cfg.useSvm then
            if fitClf then
              match py.transformScale thrKeep with
              | .error e => ({ st with py := py }, .error e)
              | .ok thr' =>
                match st.svm.fit yAll' thr' with
                | (svm, .error e) => ({ st with py := py, svm := svm }, .error e)
                | (svm, .ok f) =>
                  if f = mask then ({ st with py := py, svm := svm }, .ok (lastSlice st.nLast mask))
                  else ({ st with py := py, svm := svm }, .error .assertionError)
            else ({ st with py := py }, .ok (lastSlice st.nLast mask))
          else ({ st with py := py }, .ok (List.replicate st.nLast true)) : State P PX Θ K × Except Gpr.Err (List Bool)) with
        | (st, .error e) => (st, some e)
        | (st, .ok lastMask) =>
          if lastMask.count true = 0 ∧ (c.batch.isNone && c.fit != .no) = false then ({ st with nLastFinite := lastMask.count true }, none)
          else appendFit cfg { st with nLastFinite := lastMask.count true } c mask noise'

theorem appendMid_eq (cfg : Cfg P PX Θ K) (st : State P PX Θ K) (q : Call P K) (fc : Bool) (thr : Ext K) (mask : List Bool) :
    appendMid cfg st q fc thr mask = if mask.length ≠ st.xAll.length then (st, some .indexError) else
      tail cfg (if fc then { st with px := cfg.fitX st.px (maskL mask st.xAll) (maskL mask st.yAll) } else st) q fc thr mask
        (if fc then cfg.fitY st.py (maskL mask st.xAll) (maskL mask st.yAll) else .ok st.py) := by
  unfold appendMid
  by_cases hl : mask.length ≠ st.xAll.length
  · rw [if_pos hl, if_pos hl]
  · rw [if_neg hl, if_neg hl]
    cases fc <;> rfl

theorem tail_shift (cfg : Cfg P PX Θ K) (c : K) (st : State P PX Θ K) (q : Call P K) (fc : Bool) (thr : Ext K) (mask : List Bool) (r : Except Gpr.Err (PreY K)) :
    tail cfg (shiftS c st) (shiftC c q) fc thr mask (r.map (shiftP c)) = shiftR c (tail cfg st q fc thr mask r) := by
  cases r with
  | error e => rfl
  | ok py =>
    simp only [tail, Except.map]
    simp only [show (shiftS c st).yAll = st.yAll.map (shift c) from rfl, mapE_shift, mapE_scale_shift, transformScale_shift,
      show (shiftS c st).noise = st.noise from rfl, show (shiftS c st).svm = st.svm from rfl, show (shiftS c st).nLast = st.nLast from rfl]
    cases h2 : mapE py.transform st.yAll with
    | error e => rfl
    | ok y' =>
      dsimp only
      cases h3 : mapE py.transformScale (match st.noise with
        | .scalar s => List.replicate y'.length (.fin s)
        | .array ks => ks.map .fin) with
      | error e => rfl
      | ok noise' =>
        dsimp only
        have hend : ∀ (st2 : State P PX Θ K) (lm : List Bool),
            (if lm.count true = 0 ∧ ((shiftC c q).batch.isNone && (shiftC c q).fit != .no) = false then
              (({ shiftS c st2 with nLastFinite := lm.count true } : State P PX Θ K), (none : Option Gpr.Err))
              else appendFit cfg { shiftS c st2 with nLastFinite := lm.count true } (shiftC c q) mask noise') =
            shiftR c (if lm.count true = 0 ∧ (q.batch.isNone && q.fit != .no) = false then
              (({ st2 with nLastFinite := lm.count true } : State P PX Θ K), (none : Option Gpr.Err))
              else appendFit cfg { st2 with nLastFinite := lm.count true } q mask noise') := by
          intro st2 lm
          have : (shiftC c q).batch.isNone = q.batch.isNone := by simp [shiftC]
          rw [this, show (shiftC c q).fit = q.fit from rfl]
          by_cases h : lm.count true = 0 ∧ (q.batch.isNone && q.fit != .no) = false
          · rw [if_pos h, if_pos h]; rfl
          · rw [if_neg h, if_neg h]
            exact appendFit_shift cfg c { st2 with nLastFinite := lm.count true } q mask noise'
        cases hu : cfg.useSvm
        · exact hend { st with py := py } _
        · cases fc
          · exact hend { st with py := py } _
          · simp only [if_true]
            cases h4 : py.transformScale thr with
            | error e => rfl
            | ok thr' =>
              dsimp only
              rcases h5 : st.svm.fit y' thr' with ⟨svm, e | f⟩
              · rfl
              · dsimp only
                by_cases hfm : f = mask
                · simp only [hfm, if_true]
                  exact hend { st with py := py, svm := svm } _
                · simp only [hfm, if_false]; rfl

theorem appendMid_shift (cfg : Cfg P PX Θ K) (c : K) (hc : Equivariant cfg c) (st : State P PX Θ K) (q : Call P K) (fc : Bool) (thr : Ext K) (mask : List Bool) :
    appendMid cfg (shiftS c st) (shiftC c q) fc thr mask = shiftR c (appendMid cfg st q fc thr mask) := by
  rw [appendMid_eq, appendMid_eq]
  simp only [show (shiftS c st).xAll = st.xAll from rfl, show (shiftS c st).yAll = st.yAll.map (shift c) from rfl, show (shiftS c st).py = shiftP c st.py from rfl,
    show (shiftS c st).px = st.px from rfl, maskL_map, hc.fitX, hc.fitY]
  by_cases hl : mask.length ≠ st.xAll.length
  · rw [if_pos hl, if_pos hl]; rfl
  · rw [if_neg hl, if_neg hl]
    cases fc
    · exact tail_shift cfg c st q false thr mask (.ok st.py)
    · exact tail_shift cfg c { st with px := cfg.fitX st.px (maskL mask st.xAll) (maskL mask st.yAll) } q true thr mask _

/-- **C143**: with `c` added to all the targets, `append_to_data` does the same (points, classification, transformed targets, noise, hyperparameters, matrices, exceptions). -/
theorem C143_append (cfg : Cfg P PX Θ K) (c : K) (hc : Equivariant cfg c) (st : State P PX Θ K) (q : Call P K) :
    append cfg (shiftS c st) (shiftC c q) = (shiftS c (append cfg st q).1, (append cfg st q).2) := by
  show _ = shiftR c (append cfg st q)
  unfold append
  have hb : (shiftC c q).batch.isNone = q.batch.isNone := by simp [shiftC]
  have hx : (shiftC c q).xs = q.xs := by unfold Call.xs shiftC; cases q.batch <;> rfl
  have hy : (shiftC c q).ys = q.ys.map (shift c) := by unfold Call.ys shiftC; cases q.batch <;> rfl
  simp only [show (shiftC c q).fit = q.fit from rfl, show (shiftC c q).noise = q.noise from rfl, show (shiftC c q).fitClf = q.fitClf from rfl, hb, hx, hy,
    List.length_map, show (shiftS c st).noise = st.noise from rfl, show (shiftS c st).xAll = st.xAll from rfl, show (shiftS c st).yAll = st.yAll.map (shift c) from rfl,
    ← List.map_append]
  cases hf : q.fit with
  | invalid => rfl
  | no | yes =>
    dsimp only
    by_cases h1 : (q.batch.isNone && q.noise.isSome) = true
    · rw [if_pos h1, if_pos h1]; rfl
    rw [if_neg h1, if_neg h1]
    cases h3 : validateNoise st.noise q.noise q.ys.length with
    | error e => rfl
    | ok nz =>
      dsimp only
      cases h4 : updateNoise st.noise nz (st.yAll ++ q.ys).length with
      | error e => rfl
      | ok noise =>
        dsimp only
        cases hu : cfg.useSvm
        · simp only [List.map_map]
          exact appendMid_shift cfg c hc { st with nLast := q.ys.length, xAll := st.xAll ++ q.xs, yAll := st.yAll ++ q.ys, noise := noise } q _ cfg.thr _
        · simp only [diffThreshold_shift, isFiniteAll_shift, if_true]
          cases h5 : diffThresholdKeepN cfg.eps (st.yAll ++ q.ys) cfg.keepMin cfg.thr with
          | error e => rfl
          | ok thr =>
            dsimp only
            cases h6 : isFiniteAll thr (st.yAll ++ q.ys) with
            | error e => rfl
            | ok mask =>
              exact appendMid_shift cfg c hc { st with nLast := q.ys.length, xAll := st.xAll ++ q.xs, yAll := st.yAll ++ q.ys, noise := noise } q _ thr mask

/-- **C143**: a whole history of calls, from a new regressor. It raises for the one log-posterior if and only if it raises for the other; afterwards the states differ in the stored
targets and the mean of their preprocessor only: same points, same points classified as finite, same hyperparameters, same matrix, same counts. -/
theorem C143_history (cfg : Cfg P PX Θ K) (c : K) (hc : Equivariant cfg c) (st : State P PX Θ K) (qs : List (Call P K)) :
    run cfg (shiftS c st) (qs.map (shiftC c)) = (run cfg st qs).map (shiftS c) := by
  induction qs generalizing st with
  | nil => rfl
  | cons q qs ih =>
    simp only [List.map_cons, run, C143_append cfg c hc]
    rcases append cfg st q with ⟨st', _ | e⟩
    · exact ih st'
    · rfl

theorem shiftS_init (c : K) (px : PX) (noise : Noise K) : shiftS c (State.init px .unfitted noise : State P PX Θ K) = State.init px .unfitted noise := rfl

theorem lastSlice_map {α β : Type*} (f : α → β) (n : ℕ) (l : List α) : lastSlice n (l.map f) = (lastSlice n l).map f := by
  simp only [lastSlice, List.length_map]
  split_ifs <;> simp

/-- **C143**: what an observer sees after the history. -/
theorem C143_observers (cfg : Cfg P PX Θ K) (c : K) (hc : Equivariant cfg c) (px : PX) (noise : Noise K) (qs : List (Call P K)) (st : State P PX Θ K)
    (h : run cfg (State.init px .unfitted noise) qs = some st) :
    ∃ st', run cfg (State.init px .unfitted noise) (qs.map (shiftC c)) = some st' ∧
      st'.xTrain = st.xTrain ∧ st'.yTrain = st.yTrain.map (shift c) ∧ st'.theta = st.theta ∧ st'.factors = st.factors ∧ nTotal cfg st' = nTotal cfg st ∧
      lastAppended cfg st' = ((lastAppended cfg st).1, (lastAppended cfg st).2.map (shift c)) ∧
      trainInfinite cfg st' = (trainInfinite cfg st).map fun r => (r.1, r.2.map (shift c)) := by
  refine ⟨shiftS c st, ?_, rfl, rfl, rfl, rfl, ?_, ?_, ?_⟩
  · rw [← shiftS_init c px noise, C143_history cfg c hc, h]; rfl
  · simp [nTotal, shiftS]
  · unfold lastAppended lastAppendedFinite
    cases cfg.useSvm <;> simp [shiftS, lastSlice_map]
  · unfold trainInfinite
    cases cfg.useSvm
    · simp [Except.map]
    · simp only [if_true]
      show (if st.svm.yTrain.isEmpty ∧ st.svm.yFinite.isEmpty ∧ st.xAll ≠ [] then _ else _) = _
      split_ifs
      · rfl
      · have e : maskChecked (st.svm.yFinite.map (!·)) (st.yAll.map (shift c)) = (maskChecked (st.svm.yFinite.map (!·)) st.yAll).map (List.map (shift c)) := by
          unfold maskChecked
          simp only [List.length_map, maskL_map]
          split_ifs <;> rfl
        show (match maskChecked (st.svm.yFinite.map (!·)) st.xAll, maskChecked (st.svm.yFinite.map (!·)) (st.yAll.map (shift c)) with
          | .ok x, .ok y => Except.ok (x, y)
          | _, _ => .error Gpr.Err.indexError) = _
        rw [e]
        cases maskChecked (st.svm.yFinite.map (!·)) st.xAll <;> cases maskChecked (st.svm.yFinite.map (!·)) st.yAll <;> rfl

/-! ## The preprocessors of the targets -/

theorem finPart_shift (c : K) : ∀ ys : List (Ext K), Pre.finPart (ys.map (shift c)) = (Pre.finPart ys).map (· + c)
  | [] => rfl
  | y :: ys => by
    have := finPart_shift c ys
    unfold Pre.finPart at this ⊢
    cases y <;> simp [this]

theorem mean_shift (c : K) (l : List K) (h : l ≠ []) : Pre.mean (l.map (· + c)) = Pre.mean l + c := by
  have hl : (l.length : K) ≠ 0 := by
    rw [Nat.cast_ne_zero]
    exact fun e => h (List.length_eq_zero_iff.mp e)
  have hs : (l.map (· + c)).sum = l.sum + l.length * c := by
    clear h hl
    induction l with
    | nil => simp
    | cons a l ih => simp only [List.map_cons, List.sum_cons, ih, List.length_cons]; push_cast; ring
  unfold Pre.mean
  rw [hs, List.length_map]
  field_simp

theorem variance_shift (c : K) (l : List K) (h : l ≠ []) : Pre.variance (l.map (· + c)) = Pre.variance l := by
  unfold Pre.variance
  rw [mean_shift c l h]
  simp [Function.comp_def]

theorem normFit_shift (sqrt : K → K) (c : K) (ys : List (Ext K)) : Pre.normFit sqrt (ys.map (shift c)) = shiftP c (Pre.normFit sqrt ys) := by
  unfold Pre.normFit
  rw [finPart_shift]
  cases h : Pre.finPart ys with
  | nil => rfl
  | cons a l =>
    have h1 := mean_shift c (a :: l) (by simp)
    have h2 := variance_shift c (a :: l) (by simp)
    simp only [List.map_cons] at h1 h2 ⊢
    rw [h1, h2]; rfl

theorem getD_shift (c z : K) (l : List K) (i : ℕ) (h : i < l.length) : (l.map (· + c)).getD i z = l.getD i z + c := by
  simp [List.getD, h]

theorem getD_shift' (c : K) (l : List K) {i : ℕ} {z z' : K} (h : i < l.length) : (l.map (· + c)).getD i z' = l.getD i z + c := by
  simp [List.getD, h]

theorem percentile_shift (c : K) (l : List K) (h : l ≠ []) (p : ℕ) (hp : p ≤ 100) : Pre.percentile (l.map (· + c)) p = Pre.percentile l p + c := by
  have hl : 0 < l.length := List.length_pos_iff.mpr h
  have hj : p * (l.length - 1) / 100 < l.length := by
    have : p * (l.length - 1) ≤ 100 * (l.length - 1) := Nat.mul_le_mul_right _ hp
    omega
  unfold Pre.percentile
  simp only [List.length_map]
  rw [getD_shift c 0 l _ hj]
  have hb : (l.map (· + c)).getD (p * (l.length - 1) / 100 + 1) (l.getD (p * (l.length - 1) / 100) 0 + c) =
      l.getD (p * (l.length - 1) / 100 + 1) (l.getD (p * (l.length - 1) / 100) 0) + c := by
    by_cases hi : p * (l.length - 1) / 100 + 1 < l.length
    · rw [getD_shift' c l hi]
    · simp [List.getD, hi]
  rw [hb]; ring

theorem normFitMedian_shift (c : K) (ys : List (Ext K)) : Pre.normFitMedian (ys.map (shift c)) = shiftP c (Pre.normFitMedian ys) := by
  unfold Pre.normFitMedian
  rw [finPart_shift]
  cases h : Pre.finPart ys with
  | nil => rfl
  | cons a l =>
    have hs : ((a :: l).map (· + c)).insertionSort (· ≤ ·) = ((a :: l).insertionSort (· ≤ ·)).map (· + c) :=
      (List.map_insertionSort _ _ (· + c) (a :: l) (fun a _ b _ => by simp)).symm
    have hne : (a :: l).insertionSort (· ≤ ·) ≠ [] := by
      intro e
      have := congrArg List.length e
      rw [List.length_insertionSort] at this
      simp at this
    simp only [List.map_cons] at hs ⊢
    rw [hs, percentile_shift c _ hne 50 (by norm_num), percentile_shift c _ hne 75 (by norm_num), percentile_shift c _ hne 25 (by norm_num)]
    simp [shiftP]

theorem chi2Fit_shift (delta c : K) (ys : List (Ext K)) : Pre.chi2Fit delta (ys.map (shift c)) = (Pre.chi2Fit delta ys).map (shiftP c) := by
  unfold Pre.chi2Fit
  rw [pyMax_shift]
  rcases Ext.pyMax ys with _ | (_ | m | _ | _) <;> simp [Except.map, shiftP]
  ring

/-- **C143**: the three preprocessors of targets take the constant up (`Normalize_y`, the same with `use_median=True`, `NormalizeChi2_y`), with a preprocessor of the points
that does not look at the targets. -/
theorem C143_preprocessors (cfg : Cfg P PX Θ K) (c : K) (fx : PX → List P → PX) (hx : cfg.fitX = fun px xs _ => fx px xs)
    (hy : (∃ sqrt, cfg.fitY = fun _ _ ys => .ok (Pre.normFit sqrt ys)) ∨ cfg.fitY = (fun _ _ ys => .ok (Pre.normFitMedian ys)) ∨
      ∃ delta, cfg.fitY = fun _ _ ys => Pre.chi2Fit delta ys) : Equivariant cfg c := by
  refine ⟨fun px xs ys => by rw [hx], fun q xs ys => ?_⟩
  rcases hy with ⟨sqrt, h⟩ | h | ⟨delta, h⟩
  · simp [h, normFit_shift, Except.map]
  · simp [h, normFitMedian_shift, Except.map]
  · simp [h, chi2Fit_shift]

/-! ## The runner -/

theorem nFiniteNew_shift (cfg : Cfg P PX Θ K) (c : K) (ys : List (Ext K)) : Run.nFiniteNew cfg (ys.map (shift c)) = Run.nFiniteNew cfg ys := by
  unfold Run.nFiniteNew
  rw [pyMax_shift]
  cases Ext.pyMax ys with
  | none => rfl
  | some top =>
    simp only [Option.map_some, List.countP_map, Function.comp_def]
    congr 1
    funext y
    unfold Run.initIsFinite
    rw [sub_shift]

theorem initRounds_shift (cfg : Cfg P PX Θ K) (c : K) (p k needed : ℕ) (draw : ℕ → ℕ → ℕ → P × Ext K) :
    ∀ (n i : ℕ) (acc : List (P × Ext K)),
      Run.initRounds cfg p k needed (fun i r j => ((draw i r j).1, shift c (draw i r j).2)) n i (acc.map fun q => (q.1, shift c q.2)) =
        ((Run.initRounds cfg p k needed draw n i acc).1.map (fun q => (q.1, shift c q.2)), (Run.initRounds cfg p k needed draw n i acc).2)
  | 0, i, acc => rfl
  | n + 1, i, acc => by
    have e : (acc.map fun q => (q.1, shift c q.2)) ++ Run.roundPts p k (fun i r j => ((draw i r j).1, shift c (draw i r j).2)) i =
        (acc ++ Run.roundPts p k draw i).map fun q => (q.1, shift c q.2) := by
      rw [List.map_append]
      congr 1
      simp [Run.roundPts, List.map_flatMap, Function.comp_def]
    unfold Run.initRounds
    simp only [e]
    have e2 : ((acc ++ Run.roundPts p k draw i).map fun q => (q.1, shift c q.2)).map Prod.snd = ((acc ++ Run.roundPts p k draw i).map Prod.snd).map (shift c) := by
      simp [Function.comp_def]
    rw [e2, nFiniteNew_shift]
    split_ifs
    · rfl
    · exact initRounds_shift cfg c p k needed draw n (i + 1) _

/-- **C143**, run.py:1071-1198: initial training on `p` processes. The same points are evaluated in the same number of rounds, and it ends in the same way. -/
theorem C143_initial (cfg : Cfg P PX Θ K) (c : K) (hc : Equivariant cfg c) (p nInitial maxInitial : ℕ) (verbose : ℤ) (draw : ℕ → ℕ → ℕ → P × Ext K)
    (g : State P PX Θ K) :
    Run.initialTraining cfg p nInitial maxInitial verbose (fun i r j => ((draw i r j).1, shift c (draw i r j).2)) (shiftS c g) =
      (Run.initialTraining cfg p nInitial maxInitial verbose draw g).map fun r => (r.1.map fun q => (q.1, shift c q.2), shiftS c r.2) := by
  have hz : (shiftS c g).xTrain.zip (shiftS c g).yTrain = (g.xTrain.zip g.yTrain).map fun q => (q.1, shift c q.2) := by
    show g.xTrain.zip (g.yTrain.map (shift c)) = _
    rw [List.zip_map_right]; rfl
  have hl : (shiftS c g).yTrain.length = g.yTrain.length := by simp [shiftS]
  unfold Run.initialTraining
  simp only [hz, hl, initRounds_shift]
  by_cases hk : Mpi.ceilDiv (nInitial - g.yTrain.length) p = 0
  · rw [if_pos hk, if_pos hk]
    split_ifs <;> rfl
  · rw [if_neg hk, if_neg hk]
    rcases Run.initRounds cfg p (Mpi.ceilDiv (nInitial - g.yTrain.length) p) (nInitial - g.yTrain.length) draw
      (Mpi.ceilDiv maxInitial (Mpi.ceilDiv (nInitial - g.yTrain.length) p)) 0 (g.xTrain.zip g.yTrain) with ⟨acc, _ | _⟩
    · rfl
    · dsimp only
      have e := C143_append cfg c hc g { batch := some (acc.map Prod.fst, acc.map Prod.snd) }
      have e2 : shiftC c { batch := some (acc.map Prod.fst, acc.map Prod.snd) } =
          ({ batch := some ((acc.map fun q => (q.1, shift c q.2)).map Prod.fst, (acc.map fun q => (q.1, shift c q.2)).map Prod.snd) } : Call P K) := by
        simp [shiftC, Function.comp_def]
      rw [← e2, e]
      rcases append cfg g { batch := some (acc.map Prod.fst, acc.map Prod.snd) } with ⟨g', _ | e⟩ <;> rfl

/-- One iteration of the loop with a single process: `acq` proposes points, the true log-posterior `truth` is evaluated, `append_to_data` is called with `kind`
for the fit of the hyperparameters, and `conv` and `diag` look at the surrogate. -/
def step (cfg : Cfg P PX Θ K) (truth : P → Ext K) (acq : ℕ → State P PX Θ K → List P) (kind : ℕ → FitArg) (conv diag : ℕ → State P PX Θ K → State P PX Θ K → Bool)
    (i : ℕ) (g : State P PX Θ K) : Run.Step (State P PX Θ K) P :=
  let call : Call P K := { batch := some (acq i g, (acq i g).map truth), fit := kind i }
  { cands := acq i g
    fit := fun g => match append cfg g call with
      | (g', none) => .ok g'
      | (_, some e) => .error e
    conv := conv i g (append cfg g call).1
    diag := diag i g (append cfg g call).1 }

def shiftSt (c : K) (s : Run.St (State P PX Θ K) P) : Run.St (State P PX Θ K) P := { s with gpr := shiftS c s.gpr }

section
variable (cfg : Cfg P PX Θ K) (c : K) (hc : Equivariant cfg c) (truth : P → Ext K) (acq : ℕ → State P PX Θ K → List P) (kind : ℕ → FitArg)
  (conv diag : ℕ → State P PX Θ K → State P PX Θ K → Bool) (hacq : ∀ i g, acq i (shiftS c g) = acq i g)
  (hconv : ∀ i g g', conv i (shiftS c g) (shiftS c g') = conv i g g') (hdiag : ∀ i g g', diag i (shiftS c g) (shiftS c g') = diag i g g')
include hc hacq hconv hdiag

theorem iterate_shift (o : Run.Opts) (mc : Bool) (s : Run.St (State P PX Θ K) P) :
    Run.iterate o mc (step cfg (fun x => shift c (truth x)) acq kind conv diag s.iter (shiftS c s.gpr)) (shiftSt c s) =
      (shiftSt c (Run.iterate o mc (step cfg truth acq kind conv diag s.iter s.gpr) s).1, (Run.iterate o mc (step cfg truth acq kind conv diag s.iter s.gpr) s).2) := by
  have e0 : ∀ g, (({ batch := some (acq s.iter g, (acq s.iter g).map fun x => shift c (truth x)), fit := kind s.iter } : Call P K)) =
      shiftC c { batch := some (acq s.iter g, (acq s.iter g).map truth), fit := kind s.iter } := by
    intro g
    simp [shiftC, Function.comp_def]
  have e1 : step cfg (fun x => shift c (truth x)) acq kind conv diag s.iter (shiftS c s.gpr) =
      { step cfg truth acq kind conv diag s.iter s.gpr with
        fit := fun g => match append cfg g (shiftC c { batch := some (acq s.iter s.gpr, (acq s.iter s.gpr).map truth), fit := kind s.iter }) with
          | (g', none) => .ok g'
          | (_, some e) => .error e } := by
    unfold step
    simp only [hacq, e0, C143_append cfg c hc, hconv, hdiag]
  rw [e1]
  unfold Run.iterate
  by_cases h1 : ((step cfg truth acq kind conv diag s.iter s.gpr).cands.length : ℤ) < max 1 (o.nAcq / 2)
  · simp only [h1, if_true]
    show (if o.nResamples < ((s.resamples + 1 : ℕ) : ℤ) then _ else _) = _
    by_cases h2 : o.nResamples < ((s.resamples + 1 : ℕ) : ℤ)
    · simp only [h2, if_true]; rfl
    · simp only [h2, if_false]; rfl
  · simp only [h1, if_false]
    rw [show (shiftSt c s).gpr = shiftS c s.gpr from rfl, C143_append cfg c hc]
    have e3 : (step cfg truth acq kind conv diag s.iter s.gpr).fit s.gpr =
      (match append cfg s.gpr { batch := some (acq s.iter s.gpr, (acq s.iter s.gpr).map truth), fit := kind s.iter } with
      | (g', none) => .ok g'
      | (_, some e) => .error e) := rfl
    rw [e3]
    generalize step cfg truth acq kind conv diag s.iter s.gpr = S
    rcases append cfg s.gpr { batch := some (acq s.iter s.gpr, (acq s.iter s.gpr).map truth), fit := kind s.iter } with ⟨g', _ | e⟩
    · dsimp only
      cases S.conv <;> cases mc <;> rfl
    · rfl

theorem loop_shift (o : Run.Opts) (mc : Bool) (nF : State P PX Θ K → ℕ) (hF : ∀ g, nF (shiftS c g) = nF g) :
    ∀ (fuel : ℕ) (s : Run.St (State P PX Θ K) P),
      Run.loop o mc (nTotal cfg) nF (step cfg (fun x => shift c (truth x)) acq kind conv diag) fuel (shiftSt c s) =
        (Run.loop o mc (nTotal cfg) nF (step cfg truth acq kind conv diag) fuel s).map fun r => (shiftSt c r.1, r.2)
  | 0, s => rfl
  | fuel + 1, s => by
    unfold Run.loop
    have hT : nTotal cfg (shiftSt c s).gpr = nTotal cfg s.gpr := by simp [nTotal, shiftSt, shiftS]
    have hF' : nF (shiftSt c s).gpr = nF s.gpr := hF s.gpr
    rw [hT, hF', show (shiftSt c s).hasConverged = s.hasConverged from rfl, show (shiftSt c s).iter = s.iter from rfl,
      show (shiftSt c s).gpr = shiftS c s.gpr from rfl, iterate_shift cfg c hc truth acq kind conv diag hacq hconv hdiag]
    split_ifs
    · rcases Run.iterate o mc (step cfg truth acq kind conv diag s.iter s.gpr) s with ⟨s', _ | _ | e⟩
      · exact loop_shift o mc nF hF fuel s'
      · rfl
      · rfl
    · rfl

/-- **C143** (partial: one process, and an engine and criteria that do not see the constant), run.py:804-1061: the whole loop. It evaluates the same points in the same iterations, ends in the same way after the same number of iterations, with the same
surrogate up to the constant. `acq`, `conv` and `diag` are those whose result is not changed by the constant (see `C143_acquisition`, `C143_counter`, `C143_evals`). -/
theorem C143_loop_partial (o : Run.Opts) (mc : Bool) (fuel : ℕ) (g : State P PX Θ K) :
    Run.runLoop o mc (nTotal cfg) (fun g => g.yTrain.length) (step cfg (fun x => shift c (truth x)) acq kind conv diag) fuel (shiftS c g) =
      (Run.runLoop o mc (nTotal cfg) (fun g => g.yTrain.length) (step cfg truth acq kind conv diag) fuel g).map
        fun r => ({ r.1 with gpr := shiftS c r.1.gpr }, r.2) := by
  have h := loop_shift cfg c hc truth acq kind conv diag hacq hconv hdiag o mc (fun g => g.yTrain.length) (fun g => by simp [shiftS]) fuel (Run.St.start g)
  unfold Run.runLoop
  rw [show (Run.St.start (shiftS c g) : Run.St (State P PX Θ K) P) = shiftSt c (Run.St.start g) from rfl, h]
  rcases Run.loop o mc (nTotal cfg) (fun g => g.yTrain.length) (step cfg truth acq kind conv diag) fuel (Run.St.start g) with _ | ⟨s, _ | _ | e⟩
  · rfl
  · dsimp only [Option.map]
    rw [show (shiftSt c s).hasConverged = s.hasConverged from rfl]
    split_ifs <;> rfl
  · rfl
  · rfl

end

/-! ## Convergence, trust region, moments -/

theorem countLoop_shift (reltol abstol ymax c : K) : ∀ (l : List (Ext K × Ext K)) (n : ℕ),
    Conv.countLoop reltol abstol (ymax + c) n (l.map fun q => (shift c q.1, shift c q.2)) = Conv.countLoop reltol abstol ymax n l
  | [], n => rfl
  | (yn, yl) :: l, n => by
    have h1 : (shift c yn).eqv .negInf = yn.eqv .negInf := by cases yn <;> rfl
    have h2 : Conv.correct reltol abstol (ymax + c) (shift c yn) (shift c yl) = Conv.correct reltol abstol ymax yn yl := by
      cases yn <;> cases yl <;> simp [Conv.correct]
    simp only [List.map_cons, Conv.countLoop, h1, h2, countLoop_shift reltol abstol ymax c l]

/-- **C143**, convergence.py:836-874: `CorrectCounter`, with the new values, the predictions and the maximum shifted. -/
theorem C143_counter (reltol abstol nCorrect c : K) (s : Conv.Counter K) (b : Conv.Batch K) :
    Conv.Counter.step reltol abstol nCorrect s ⟨b.newY.map (shift c), b.predY.map (shift c), b.ymax + c⟩ = Conv.Counter.step reltol abstol nCorrect s b := by
  have : (b.newY.map (shift c)).zip (b.predY.map (shift c)) = (b.newY.zip b.predY).map fun q => (shift c q.1, shift c q.2) := by
    rw [List.zip_map]; rfl
  unfold Conv.Counter.step
  simp only [List.length_map, this, countLoop_shift]

/-- **C143**, tools.py:431-440: mean and covariance of the training set (used by `GaussianKLTrain`, `TrainAlignment` and the diagnosis of the sample). -/
theorem C143_evals {d : ℕ} (ex : K → K) (c : K) (X : List (Fin d → K)) (logp : List (Ext K)) :
    Cov.fromEvals ex X (logp.map (shift c)) = Cov.fromEvals ex X logp := by
  unfold Cov.fromEvals
  rw [pyMax_shift]
  cases Ext.pyMax logp with
  | none => rfl
  | some m =>
    simp only [Option.map_some, List.map_map, Function.comp_def]
    have : ∀ l : Ext K, (shift c l).sub (shift c m) = l.sub m := fun l => sub_shift c l m
    simp only [this]

theorem foldl_max_add (c : K) : ∀ (l : List K) (a : K), (l.map (· + c)).foldl max (a + c) = l.foldl max a + c
  | [], a => rfl
  | b :: l, a => by simp only [List.map_cons, List.foldl_cons, max_add_add_right, foldl_max_add c l]

theorem foldl_min_add (c : K) : ∀ (l : List K) (a : K), (l.map (· + c)).foldl min (a + c) = l.foldl min a + c
  | [], a => rfl
  | b :: l, a => by simp only [List.map_cons, List.foldl_cons, min_add_add_right, foldl_min_add c l]

theorem maxOf_add (c : K) (l : List K) : Tools.maxOf (l.map (· + c)) = (Tools.maxOf l).map (· + c) := by
  cases l with
  | nil => rfl
  | cons a l => simp only [Tools.maxOf, List.map_cons, foldl_max_add, Option.map_some]

theorem minOf_add (c : K) (l : List K) : Tools.minOf (l.map (· + c)) = (Tools.minOf l).map (· + c) := by
  cases l with
  | nil => rfl
  | cons a l => simp only [Tools.minOf, List.map_cons, foldl_min_add, Option.map_some]

theorem select_add {d : ℕ} (delta : K → K) (c : K) (tr : List ((Fin d → K) × K)) (nstd : K) :
    Trust.select delta (tr.map fun q => (q.1, q.2 + c)) nstd = (Trust.select delta tr nstd).map fun q => (q.1, q.2 + c) := by
  unfold Trust.select
  have : (tr.map fun q => (q.1, q.2 + c)).map Prod.snd = (tr.map Prod.snd).map (· + c) := by simp [Function.comp_def]
  rw [this, maxOf_add]
  cases Tools.maxOf (tr.map Prod.snd) with
  | none => rfl
  | some top => simp [List.filter_map, Function.comp_def]

theorem trustLoop_add {d : ℕ} (delta : K → K) (c : K) (tr : List ((Fin d → K) × K)) : ∀ (fuel : ℕ) (nstd : K) (use : List ((Fin d → K) × K)),
    Trust.loop delta (tr.map fun q => (q.1, q.2 + c)) fuel nstd (use.map fun q => (q.1, q.2 + c)) =
      (Trust.loop delta tr fuel nstd use).map (List.map fun q => (q.1, q.2 + c))
  | 0, _, _ => rfl
  | fuel + 1, nstd, use => by
    unfold Trust.loop
    rw [List.length_map, List.length_map, select_add]
    split_ifs
    · exact trustLoop_add delta c tr fuel _ _
    · rfl

/-- **C143**, gpr.py:554-575: the trust region is the same. -/
theorem C143_trust {d : ℕ} (delta : K → K) (c : K) (bounds : Fin d → K × K) (factor nstd : Option K) (tr : List ((Fin d → K) × K)) (old : Option (Fin d → K × K)) (fuel : ℕ) :
    Trust.updateTrust delta bounds factor nstd (tr.map fun q => (q.1, q.2 + c)) old fuel = Trust.updateTrust delta bounds factor nstd tr old fuel := by
  unfold Trust.updateTrust
  cases factor with
  | none => rfl
  | some f =>
    have : Trust.used delta nstd (tr.map fun q => (q.1, q.2 + c)) fuel = (Trust.used delta nstd tr fuel).map (List.map fun q => (q.1, q.2 + c)) := by
      unfold Trust.used
      cases nstd with
      | none => rfl
      | some s => exact trustLoop_add delta c tr fuel s []
    dsimp only
    rw [this]
    cases Trust.used delta nstd tr fuel with
    | none => rfl
    | some use => simp [Function.comp_def]

/-! ## Each theorem applied to concrete data -/

/-- A classifier with threshold 20, `NormalizeChi2_y` with the constant 2, no preprocessor of the points. -/
def exCfg : Cfg ℚ Unit ℕ ℚ :=
  { useSvm := true, keepMin := 1, thr := .fin 20, eps := 1 / 1000000, fitX := fun _ _ _ => (), trX := fun _ x => x, fitY := fun _ _ ys => Pre.chi2Fit 2 ys, nRestarts := 1,
    canOptimise := true, optimise := fun xs ys _ _ _ => xs.length + ys.countP fun y => y.lt (.fin 0), cholOk := fun _ _ _ => true }

theorem exCfg_ok (c : ℚ) : Equivariant exCfg c := C143_preprocessors exCfg c (fun _ _ => ()) rfl (Or.inr (Or.inr ⟨2, rfl⟩))

example (sqrt : ℚ → ℚ) : Equivariant { exCfg with fitY := fun _ _ ys => .ok (Pre.normFit sqrt ys) } 3 := C143_preprocessors _ 3 (fun _ _ => ()) rfl (Or.inl ⟨sqrt, rfl⟩)

/-- Two batches; the point 4 is classified as infinite. -/
def exCalls : List (Call ℚ ℚ) := [{ batch := some ([1, 2], [.fin (-1), .fin (-3)]) }, { batch := some ([3, 4], [.fin (-2), .fin (-50)]), fit := .no }]

example : (run exCfg (State.init () .unfitted (.scalar (1 / 10))) exCalls).map (fun st => (st.yTrain, st.theta, st.py, nTotal exCfg st)) =
    some ([.fin (-1), .fin (-3), .fin (-2)], some 2, .aff (-3) 2, 4) := by decide +kernel

example : (run exCfg (State.init () .unfitted (.scalar (1 / 10))) (exCalls.map (shiftC 1000))).map (fun st => (st.yTrain, st.theta, st.py, nTotal exCfg st)) =
    some ([.fin 999, .fin 997, .fin 998], some 2, .aff 997 2, 4) := by decide +kernel

example (q : Call ℚ ℚ) (st : State ℚ Unit ℕ ℚ) : append exCfg (shiftS 1000 st) (shiftC 1000 q) = (shiftS 1000 (append exCfg st q).1, (append exCfg st q).2) :=
  C143_append exCfg 1000 (exCfg_ok 1000) st q

example : run exCfg (shiftS 1000 (State.init () .unfitted (.scalar (1 / 10)))) (exCalls.map (shiftC 1000)) =
    (run exCfg (State.init () .unfitted (.scalar (1 / 10))) exCalls).map (shiftS 1000) :=
  C143_history exCfg 1000 (exCfg_ok 1000) _ _

example : ∃ st', run exCfg (State.init () .unfitted (.scalar (1 / 10))) (exCalls.map (shiftC 1000)) = some st' ∧ st'.xTrain = [1, 2, 3] := by
  have h : (run exCfg (State.init () .unfitted (.scalar (1 / 10))) exCalls).map (·.xTrain) = some [1, 2, 3] := by decide +kernel
  obtain ⟨st, h1, h2⟩ := Option.map_eq_some_iff.mp h
  obtain ⟨st', e, hx, _⟩ := C143_observers exCfg 1000 (exCfg_ok 1000) () (.scalar (1 / 10)) exCalls st h1
  exact ⟨st', e, hx.trans h2⟩

/-- Points drawn by two processes, with the log-posterior `-x²`. -/
def exDraw : ℕ → ℕ → ℕ → ℚ × Ext ℚ := fun i r j => ((i + 10 * r + j : ℕ), .fin (-((i + 10 * r + j : ℕ) * (i + 10 * r + j : ℕ))))

example : (Run.initialTraining exCfg 2 4 20 1 exDraw (State.init () .unfitted (.scalar (1 / 10)))).map (fun r => r.1.map Prod.fst) = .ok [0, 1, 10, 11, 1, 2, 11, 12] := by decide +kernel

example : Run.initialTraining exCfg 2 4 20 1 (fun i r j => ((exDraw i r j).1, shift 7 (exDraw i r j).2)) (shiftS 7 (State.init () .unfitted (.scalar (1 / 10)))) =
    (Run.initialTraining exCfg 2 4 20 1 exDraw (State.init () .unfitted (.scalar (1 / 10)))).map fun r => (r.1.map fun q => (q.1, shift 7 q.2), shiftS 7 r.2) :=
  C143_initial exCfg 7 (exCfg_ok 7) 2 4 20 1 exDraw _

/-- An acquisition that proposes the number of training points plus the hyperparameter, convergence when a new point is not the best one of the training set. -/
def exAcq (i : ℕ) (g : State ℚ Unit ℕ ℚ) : List ℚ := [(g.xAll.length : ℚ) + g.theta.getD 0, i]
def exConv (i : ℕ) (g g' : State ℚ Unit ℕ ℚ) : Bool := decide (g'.yTrain.length = g.yTrain.length)

example (fuel : ℕ) (g : State ℚ Unit ℕ ℚ) :
    Run.runLoop ⟨4, 20, 40, 40, 2, 2, 1, 2⟩ true (nTotal exCfg) (fun g => g.yTrain.length)
        (step exCfg (fun x => shift 7 (.fin (-(x * x)))) exAcq (fun i => if i % 2 = 0 then .no else .yes none) exConv (fun _ _ _ => true)) fuel (shiftS 7 g) =
      (Run.runLoop ⟨4, 20, 40, 40, 2, 2, 1, 2⟩ true (nTotal exCfg) (fun g => g.yTrain.length)
        (step exCfg (fun x => .fin (-(x * x))) exAcq (fun i => if i % 2 = 0 then .no else .yes none) exConv (fun _ _ _ => true)) fuel g).map
        fun r => ({ r.1 with gpr := shiftS 7 r.1.gpr }, r.2) :=
  C143_loop_partial exCfg 7 (exCfg_ok 7) (fun x => .fin (-(x * x))) exAcq _ exConv _ (fun i g => rfl) (fun i g g' => by simp [exConv, shiftS]) (fun _ _ _ => rfl) _ true fuel g

/-- The loop converges in the first iteration: the new point 5 is far below the others. -/
example : (run exCfg (State.init () .unfitted (.scalar (1 / 10))) [{ batch := some ([1, 2], [.fin (-1), .fin (-4)]) }]).map
    (fun g => (Run.runLoop ⟨4, 20, 40, 40, 2, 2, 1, 2⟩ true (nTotal exCfg) (fun g => g.yTrain.length)
      (step exCfg (fun x => .fin (-(x * x) * 10)) (fun i g => [(g.xAll.length : ℚ) + g.theta.getD 0]) (fun _ => .no) exConv (fun _ _ _ => true)) 10 g).map
      fun r => (r.1.evals, r.1.iter, r.1.gpr.yTrain)) = some (some ([5], 1, [.fin (-1), .fin (-4)])) := by decide +kernel

example : (Conv.Counter.step (1 / 100 : ℚ) (1 / 10) 1 ⟨1, 3⟩ ⟨[shift 1000 (.fin (-5)), shift 1000 .negInf], [shift 1000 (.fin (-5)), shift 1000 (.fin 1)], -1 + 1000⟩).2 = .ok true := by
  rw [show ([shift 1000 (.fin (-5)), shift 1000 .negInf] : List (Ext ℚ)) = [.fin (-5), .negInf].map (shift 1000) from rfl,
    show ([shift 1000 (.fin (-5)), shift 1000 (.fin 1)] : List (Ext ℚ)) = [.fin (-5), .fin 1].map (shift 1000) from rfl]
  rw [C143_counter (1 / 100 : ℚ) (1 / 10) 1 1000 ⟨1, 3⟩ ⟨[.fin (-5), .negInf], [.fin (-5), .fin 1], -1⟩]
  decide +kernel

example : Cov.fromEvals (fun x : ℚ => 1 / (1 - x)) [fun _ : Fin 1 => 0, fun _ => 1, fun _ => 2] ([.fin 0, .fin (-1), .negInf].map (shift 1000)) =
    Cov.fromEvals (fun x : ℚ => 1 / (1 - x)) [fun _ : Fin 1 => 0, fun _ => 1, fun _ => 2] [.fin 0, .fin (-1), .negInf] :=
  C143_evals _ 1000 _ _

example : Trust.updateTrust (fun s : ℚ => s * s / 2) (fun _ : Fin 1 => (0, 10)) (some 2) (some 2) ([(fun _ => 3, -1), (fun _ => 5, -2), (fun _ => 9, -30)].map fun q => (q.1, q.2 + 1000)) none 5 =
    Trust.updateTrust (fun s : ℚ => s * s / 2) (fun _ : Fin 1 => (0, 10)) (some 2) (some 2) [(fun _ => 3, -1), (fun _ => 5, -2), (fun _ => 9, -30)] none 5 :=
  C143_trust _ 1000 _ _ _ _ _ _

end GPry.Shift
