import Verif.NsRun
import Verif.NoraSpmdProps
import Verif.McSampProps

set_option linter.all false

/-! # Properties of the runs of nested samplers (C122) -/

namespace GPry.NsRun

open Cobaya McSamp Spmd Prog
open GPry.NoraSpmd (AErr)

/-! ## Verbosity -/

/-- **C122** (verbosity). The feedback asked of PolyChord is never 0, it grows with the verbosity, and both PolyChord and nessai report progress
exactly from verbosity 4 on. Nothing else changes. -/
theorem C122_verbosity (v v' : ℤ) (s : Settings) :
    (setVerbosity v s).feedback ≠ 0 ∧ (v ≤ v' → (setVerbosity v s).feedback ≤ (setVerbosity v' s).feedback) ∧
    (1 ≤ (setVerbosity v s).feedback ↔ 4 ≤ v) ∧ (nessaiLogs v = true ↔ 1 ≤ (setVerbosity v s).feedback) ∧
    (setVerbosity v (setVerbosity v' s)) = setVerbosity v s ∧
    (setVerbosity v s).dir = s.dir ∧ (setVerbosity v s).seed = s.seed ∧ (setVerbosity v s).prec = s.prec := by
  simp only [setVerbosity, nessaiLogs, decide_eq_true_eq]
  refine ⟨?_, ?_, ?_, ?_, trivial, trivial, trivial, trivial⟩
  · split <;> omega
  · intro h
    split <;> split <;> omega
  · split <;> omega
  · split <;> omega

example (s : Settings) : (setVerbosity 2 s).feedback ≤ (setVerbosity 5 s).feedback ∧ nessaiLogs 5 = true :=
  ⟨(C122_verbosity 2 5 s).2.1 (by norm_num), (C122_verbosity 5 5 s).2.2.2.1.2 ((C122_verbosity 5 5 s).2.2.1.2 (by norm_num))⟩

/-! ## Tables -/

/-- **C122** (PolyChord's table). If the table holds, in each of two or more rows, a weight, minus twice the log-likelihood and a point, then
points, values and weights are read back, in order. -/
theorem parse_rows (l : List (ℝ × ℝ × List ℝ)) (h : 2 ≤ l.length) :
    parseTable (l.map fun q => q.1 :: (-2 * q.2.1) :: q.2.2) = .ok (.rows (l.map fun q => q.2.2) (l.map fun q => q.2.1) (l.map fun q => q.1)) := by
  match l, h with
  | a :: b :: t, _ =>
    simp only [List.map_cons, parseTable]
    rw [if_neg]
    · simp only [List.map_map, List.drop_succ_cons, List.drop_zero, List.getD_cons_zero, List.getD_cons_succ, Function.comp_def]
      congr 1
      have e : ∀ y : ℝ, (-0.5 : ℝ) * (-2 * y) = y := fun y => by norm_num; ring
      simp only [e]
    · simp

example : parseTable [[1, -2 * -5, 7], [3, -2 * -6, 8]] = .ok (.rows [[7], [8]] [-5, -6] [1, 3]) :=
  parse_rows [(1, -5, [7]), (3, -6, [8])] (by simp)

theorem parse_bad : parseTable [] = .error .indexError ∧
    (∀ w y x, parseTable [w :: (-2 * y) :: x] = .ok (.flat x y w)) := by
  refine ⟨rfl, fun w y x => ?_⟩
  have e : (-0.5 : ℝ) * (-2 * y) = y := by norm_num; ring
  simp only [parseTable, e]

example : parseTable [[1, -2 * -5, 7]] = .ok (.flat [7] (-5) 1) := parse_bad.2 1 (-5) [7]

/-- **C122** (nessai's table): the columns after the parameters are the log-prior, the log-likelihood and the iteration. -/
theorem nessai_rows (l : List (List ℝ × ℝ × ℝ × ℝ)) :
    nessaiX (l.map fun q => q.1 ++ [q.2.1, q.2.2.1, q.2.2.2]) = l.map (fun q => q.1) ∧
    nessaiY (l.map fun q => q.1 ++ [q.2.1, q.2.2.1, q.2.2.2]) = l.map (fun q => q.2.2.1) := by
  simp only [nessaiX, nessaiY, List.map_map, Function.comp_def, List.length_append, List.length_cons, List.length_nil]
  constructor
  · refine List.map_congr_left fun q _ => ?_
    simp
  · refine List.map_congr_left fun q _ => ?_
    have : q.1.length + (0 + 1 + 1 + 1) - 2 = q.1.length + 1 := by omega
    rw [this, List.getD_eq_getElem?_getD, List.getElem?_append_right (by omega)]
    simp

example : nessaiX [[7, 0, -5, 1]] = [[7]] ∧ nessaiY [[7, 0, -5, 1]] = [-5] := nessai_rows [([7], 0, -5, 1)]

/-! ## Runs -/

theorem ofFn_const {α : Type*} (p : ℕ) (a : α) : List.ofFn (fun _ : Fin p => a) = List.replicate p a := by
  rw [List.ofFn_const]

/-- The settings are those of the main process, with its folder, and its seed if there is one. -/
def IsMain (abs : Str → Str) (tmp : Str) (outDir : Option Str) (seed : Option ℕ) (st st0 : Settings) : Prop :=
  st0.feedback = st.feedback ∧ st0.prec = st.prec ∧ st0.dir = some (folder abs tmp outDir) ∧
    (∀ n, seed = some n → st0.seed = some n) ∧ (seed = none → st0.seed = st.seed)

theorem configure_main {abs : Str → Str} {tmp : Str} {outDir : Option Str} {seed : Option ℕ} {st st0 : Settings}
    (h : IsMain abs tmp outDir seed st st0) : configure 0 abs tmp outDir seed st = st0 := by
  obtain ⟨h1, h2, h3, h4, h5⟩ := h
  cases st0
  cases seed with
  | none => simp_all [configure]
  | some n => simp_all [configure]

/-- **C122** (PolyChord). Whatever the settings, folders and seeds in the processes, PolyChord is run in all of them with the same settings, which
are those of the main process; they are kept. The main process gets the points, values and weights that PolyChord has written; the others
get none. -/
theorem C122_polychord {p : ℕ} (hp : 0 < p) (pc : List Settings → PcOut) (abs : Str → Str) (tmp : Fin p → Str) (outDir : Fin p → Option Str)
    (seed : Fin p → Option ℕ) (st : Fin p → Settings) (st0 : Settings)
    (hst : IsMain abs (tmp ⟨0, hp⟩) (outDir ⟨0, hp⟩) (seed ⟨0, hp⟩) (st ⟨0, hp⟩) st0)
    (l : List (ℝ × ℝ × List ℝ)) (hl : 2 ≤ l.length)
    (ht : (pc (List.replicate p st0)).table = l.map fun q => q.1 :: (-2 * q.2.1) :: q.2.2) :
    Runs (fun r : Fin p => runPolychord r pc abs (tmp r) (outDir r) false (seed r) (st r)) fun r =>
      .ok (st0, { all := none, mc := if r.val = 0 then some (.rows (l.map fun q => q.2.2) (l.map fun q => q.2.1) (l.map fun q => q.1)) else none }) := by
  unfold runPolychord
  refine Runs.bind (runs_share ⟨0, hp⟩ fun r : Fin p => configure r abs (tmp r) (outDir r) (seed r) (st r)) ?_
  dsimp only
  rw [configure_main hst]
  refine Runs.bind (runs_collectAll fun _ : Fin p => st0) ?_
  rw [ofFn_const]
  refine Runs.bind (a := fun _ => none) (by simpa using Runs.ret _) ?_
  refine NoraSpmd.runs_of_eq fun r => ?_
  rw [ht, parse_rows l hl]
  by_cases hr : r.val = 0 <;> simp [hr]

theorem runs_of_eq_ex {E B : Type} {p : ℕ} {f : Fin p → Prog E B} {a : Fin p → Except E B} (h : ∀ r, f r = Prog.fin (a r)) : Runs f a := by
  rw [funext h]
  exact Runs.fin _

theorem runs_gatherAll {p : ℕ} (hp : 0 < p) (evs : Fin p → List (List ℝ × ℝ)) :
    ((∀ r, evs r ≠ []) → Runs (fun r : Fin p => gatherAll (evs r)) fun r =>
      .ok (if r.val = 0 then some ((List.ofFn evs).flatten.map Prod.fst, (List.ofFn evs).flatten.map Prod.snd) else none)) ∧
    ((∃ r, evs r = []) → (∃ r, evs r ≠ []) → Runs (fun r : Fin p => gatherAll (evs r)) fun r =>
      if r.val = 0 then .error .valueError else .ok none) := by
  have e1 : (List.ofFn fun r => (evs r).map Prod.fst) = (List.ofFn evs).map (·.map Prod.fst) := by rw [List.map_ofFn]; rfl
  have e2 : (List.ofFn fun r => (evs r).map Prod.snd) = (List.ofFn evs).map (·.map Prod.snd) := by rw [List.map_ofFn]; rfl
  constructor
  · intro h
    unfold gatherAll
    refine Runs.bind (runs_collect _) (Runs.bind (runs_collect _) ?_)
    refine NoraSpmd.runs_of_eq fun r => ?_
    by_cases hr : r.val = 0
    · have hc : concatX ((List.ofFn evs).map (·.map Prod.fst)) = .ok ((List.ofFn evs).flatten.map Prod.fst) := by
        unfold concatX
        rw [if_neg, List.map_flatten]
        simp only [List.any_map, List.any_eq_true, Bool.and_eq_true, not_and, Function.comp]
        rintro ⟨x, hx, hx'⟩
        obtain ⟨r, rfl⟩ := List.mem_ofFn.mp hx
        simp [h r] at hx'
      simp only [hr, if_true, e1, e2, hc, List.map_flatten]
    · simp only [hr, if_false]
  · rintro ⟨a, ha⟩ ⟨b, hb⟩
    unfold gatherAll
    refine Runs.bind (runs_collect _) (Runs.bind (runs_collect _) ?_)
    refine runs_of_eq_ex fun r => ?_
    by_cases hr : r.val = 0
    · have hc : concatX ((List.ofFn evs).map (·.map Prod.fst)) = .error .valueError := by
        unfold concatX
        rw [if_pos]
        simp only [List.any_map, List.any_eq_true, Bool.and_eq_true, Function.comp, Bool.not_eq_true', List.all_map, List.all_eq_false]
        exact ⟨⟨evs a, List.mem_ofFn.mpr ⟨a, rfl⟩, by simp [ha]⟩, ⟨evs b, List.mem_ofFn.mpr ⟨b, rfl⟩, by simp [hb]⟩⟩
      simp only [hr, if_true, e1, e2, hc]
      rfl
    · simp only [hr, if_false]
      rfl

/-- **C122** (`keep_all`). If every process has evaluated the function at some point, the main process also gets all the points evaluated, each with its
value. -/
theorem C122_keep_all_partial {p : ℕ} (hp : 0 < p) (pc : List Settings → PcOut) (abs : Str → Str) (tmp : Fin p → Str) (outDir : Fin p → Option Str)
    (seed : Fin p → Option ℕ) (st : Fin p → Settings) (st0 : Settings)
    (hst : IsMain abs (tmp ⟨0, hp⟩) (outDir ⟨0, hp⟩) (seed ⟨0, hp⟩) (st ⟨0, hp⟩) st0)
    (l : List (ℝ × ℝ × List ℝ)) (hl : 2 ≤ l.length)
    (ht : (pc (List.replicate p st0)).table = l.map fun q => q.1 :: (-2 * q.2.1) :: q.2.2)
    (evs : Fin p → List (List ℝ × ℝ)) (he : (pc (List.replicate p st0)).evs = List.ofFn evs) (hne : ∀ r, evs r ≠ []) :
    ∃ X y, Runs (fun r : Fin p => runPolychord r pc abs (tmp r) (outDir r) true (seed r) (st r)) (fun r =>
      .ok (st0, ⟨if r.val = 0 then some (X, y) else none,
        if r.val = 0 then some (.rows (l.map fun q => q.2.2) (l.map fun q => q.2.1) (l.map fun q => q.1)) else none⟩)) ∧
      X.length = y.length ∧ ∀ x v, (x, v) ∈ X.zip y ↔ ∃ r, (x, v) ∈ evs r := by
  refine ⟨(List.ofFn evs).flatten.map Prod.fst, (List.ofFn evs).flatten.map Prod.snd, ?_, by rw [List.length_map, List.length_map], ?_⟩
  · unfold runPolychord
    refine Runs.bind (runs_share ⟨0, hp⟩ fun r : Fin p => configure r abs (tmp r) (outDir r) (seed r) (st r)) ?_
    dsimp only
    rw [configure_main hst]
    refine Runs.bind (runs_collectAll fun _ : Fin p => st0) ?_
    rw [ofFn_const, he]
    have hg : ∀ r : Fin p, (List.ofFn evs).getD r [] = evs r := by
      intro r
      simp [List.getD_eq_getElem?_getD]
    simp only [hg, if_true]
    refine Runs.bind ((runs_gatherAll hp evs).1 hne) ?_
    refine NoraSpmd.runs_of_eq fun r => ?_
    rw [ht, parse_rows l hl]
    by_cases hr : r.val = 0 <;> simp [hr]
  · intro x v
    rw [List.zip_map', List.map_id']
    simp [List.mem_ofFn]

/-- **C122** is false of `keep_all` if some process, but not all, has evaluated nothing, as PolyChord's administrator (the main process) when there are
several: the arrays are not concatenated, and the main process raises an exception while the others return. -/
theorem C122_keep_all_counterexample {p : ℕ} (hp : 0 < p) (pc : List Settings → PcOut) (abs : Str → Str) (tmp : Fin p → Str)
    (outDir : Fin p → Option Str) (seed : Fin p → Option ℕ) (st : Fin p → Settings) (st0 : Settings)
    (hst : IsMain abs (tmp ⟨0, hp⟩) (outDir ⟨0, hp⟩) (seed ⟨0, hp⟩) (st ⟨0, hp⟩) st0)
    (evs : Fin p → List (List ℝ × ℝ)) (he : (pc (List.replicate p st0)).evs = List.ofFn evs) (hno : ∃ r, evs r = []) (hsome : ∃ r, evs r ≠ []) :
    Runs (fun r : Fin p => runPolychord r pc abs (tmp r) (outDir r) true (seed r) (st r)) fun r =>
      if r.val = 0 then .error .valueError else .ok (st0, { all := none, mc := none }) := by
  unfold runPolychord
  refine Runs.bind (runs_share ⟨0, hp⟩ fun r : Fin p => configure r abs (tmp r) (outDir r) (seed r) (st r)) ?_
  dsimp only
  rw [configure_main hst]
  refine Runs.bind (runs_collectAll fun _ : Fin p => st0) ?_
  rw [ofFn_const, he]
  have hg : ∀ r : Fin p, (List.ofFn evs).getD r [] = evs r := by
    intro r
    simp [List.getD_eq_getElem?_getD]
  simp only [hg, if_true]
  refine ((runs_gatherAll hp evs).2 hno hsome).cont ?_
  refine runs_of_eq_ex fun r => ?_
  by_cases hr : r.val = 0
  · simp only [hr, if_true]
    rfl
  · simp only [hr, if_false]
    rfl

/-- **C122** (UltraNest). The main process gets the points, values and weights of UltraNest, without those of weight zero; the others get none. Only the
main process passes a folder. -/
theorem C122_ultranest {p : ℕ} (hp : 0 < p) (un : List (Option Str) → List ℝ × List (List ℝ) × List ℝ) (abs : Str → Str) (tmp : Fin p → Str)
    (outDir : Fin p → Option Str) (output : Fin p → Option Str) (hout : ∀ r, r.val ≠ 0 → output r = none)
    (l : List (ℝ × List ℝ × ℝ))
    (hl : un (some (folder abs (tmp ⟨0, hp⟩) (outDir ⟨0, hp⟩)).1 :: List.replicate (p - 1) none) =
      (l.map fun q => q.1, l.map fun q => q.2.1, l.map fun q => q.2.2)) :
    ∃ m : List (ℝ × List ℝ × ℝ), m = l.filter (fun q => q.1 ≠ 0) ∧
      Runs (fun r : Fin p => runUltranest r un abs (tmp r) (outDir r) false (output r)) fun r =>
        .ok (if r.val = 0 then some (folder abs (tmp r) (outDir r)).1 else none,
          if r.val = 0 then some (m.map fun q => q.2.1, m.map fun q => q.2.2, m.map fun q => q.1) else none) := by
  refine ⟨_, rfl, ?_⟩
  have hz : ∀ {B : Type} (f : ℝ × List ℝ × ℝ → B), Tools.dropZero (l.map fun q => q.1) (l.map f) = (l.filter fun q => q.1 ≠ 0).map f := by
    intro B f
    unfold Tools.dropZero
    rw [List.zip_map', List.filter_map, List.map_map]
    rfl
  have hw : (l.map fun q => q.1).filter (· ≠ 0) = (l.filter fun q => q.1 ≠ 0).map fun q => q.1 := by
    rw [List.filter_map]
    rfl
  unfold runUltranest
  simp only [Bool.false_eq_true, if_false]
  refine Runs.bind (runs_collectAll fun r : Fin p => if r.val = 0 then some (folder abs (tmp r) (outDir r)).1 else output r) ?_
  have ho : (List.ofFn fun r : Fin p => if r.val = 0 then some (folder abs (tmp r) (outDir r)).1 else output r) =
      some (folder abs (tmp ⟨0, hp⟩) (outDir ⟨0, hp⟩)).1 :: List.replicate (p - 1) none := by
    obtain ⟨k, rfl⟩ : ∃ k, p = k + 1 := ⟨p - 1, by omega⟩
    rw [List.ofFn_succ]
    congr 1
    have : (fun i : Fin k => if (i.succ : Fin (k + 1)).val = 0 then some (folder abs (tmp i.succ) (outDir i.succ)).1 else output i.succ) = fun _ => none := by
      funext i
      rw [if_neg (by simp), hout _ (by simp)]
    rw [this, ofFn_const]
    rfl
  rw [ho, hl]
  refine NoraSpmd.runs_of_eq fun r => ?_
  by_cases hr : r.val = 0
  · have hlen : ¬ ((l.map fun q => q.2.1).length ≠ (l.map fun q => q.1).length ∨ (l.map fun q => q.2.2).length ≠ (l.map fun q => q.1).length) := by simp
    simp only [hr, if_true, if_neg hlen, hz, hw]
  · simp only [hr, if_false, hout r hr]

/-! ## `do_MC_sample` -/

/-- The names of the samplers. -/
def key : Option Sampler → Str
  | none => str "uniform"
  | some .polychord => str "polychord"
  | some .ultranest => str "ultranest"
  | some .nessai => str "nessai"

theorem interfaceOf_eq {n : Str} {s : Sampler} (h : interfaceOf n = some s) :
    n = key (some s) := by
  unfold interfaceOf at h
  split at h
  · cases h; assumption
  · split at h
    · cases h; assumption
    · split at h
      · cases h; assumption
      · cases h

theorem loadSampler_eq {installed : Sampler → Bool} {n name : Str} {i : Option Sampler} (h : loadSampler installed n = .ok (i, name)) :
    lower name = key i := by
  unfold loadSampler at h
  split at h
  · rename_i s hs
    split at h
    · cases h
      exact interfaceOf_eq hs
    · cases h
  · split at h
    · cases h
    · rename_i hn
      cases h
      push Not at hn
      exact hn

theorem initSampler_eq {installed : Sampler → Bool} {n : Option Str} {name : Str} {i : Option Sampler} (h : initSampler installed n = .ok (i, name)) :
    lower name = key i := by
  cases n with
  | none =>
    simp only [initSampler] at h
    split at h
    · exact loadSampler_eq h
    · exact loadSampler_eq h
  | some m => exact loadSampler_eq h

/-- What the sampler of each kind has found, given what the processes pass to it: the points and weights `d`. -/
def Found {p : ℕ} (hp : 0 < p) (e : Fin p → Env) (i : Option Sampler) (d : List (List ℝ) × Option (List ℝ)) : Prop :=
  match i with
  | none => d = ((List.range (1000 * (e ⟨0, hp⟩).dim)).map (e ⟨0, hp⟩).unif, none)
  | some .polychord => ∃ st0, IsMain (e ⟨0, hp⟩).abs (e ⟨0, hp⟩).tmp (e ⟨0, hp⟩).outDir (e ⟨0, hp⟩).seed (e ⟨0, hp⟩).settings st0 ∧
    (∀ r, (e r).pc = (e ⟨0, hp⟩).pc ∧ (e r).abs = (e ⟨0, hp⟩).abs) ∧
    ∃ l : List (ℝ × ℝ × List ℝ), 2 ≤ l.length ∧ ((e ⟨0, hp⟩).pc (List.replicate p st0)).table = l.map (fun q => q.1 :: (-2 * q.2.1) :: q.2.2) ∧
      d = (l.map fun q => q.2.2, some (l.map fun q => q.1))
  | some .nessai => ∃ l : List (List ℝ × ℝ × ℝ × ℝ), (e ⟨0, hp⟩).nessai = l.map (fun q => q.1 ++ [q.2.1, q.2.2.1, q.2.2.2]) ∧ d = (l.map fun q => q.1, none)
  | some .ultranest => (∀ r, (e r).un = (e ⟨0, hp⟩).un ∧ (e r).abs = (e ⟨0, hp⟩).abs) ∧ (∀ r : Fin p, r.val ≠ 0 → (e r).output = none) ∧
    ∃ l : List (ℝ × List ℝ × ℝ), (e ⟨0, hp⟩).un (some (folder (e ⟨0, hp⟩).abs (e ⟨0, hp⟩).tmp (e ⟨0, hp⟩).outDir).1 :: List.replicate (p - 1) none) =
      (l.map fun q => q.1, l.map fun q => q.2.1, l.map fun q => q.2.2) ∧
      d = ((l.filter fun q => q.1 ≠ 0).map fun q => q.2.1, some ((l.filter fun q => q.1 ≠ 0).map fun q => q.1))

/-- **C122** For an object initialised with any of the samplers, `do_MC_sample` ends in all the processes, and gives the main process the points (and
weights, for PolyChord and UltraNest) that this sampler has found, and none to the others. -/
theorem C122_draw {p : ℕ} (hp : 0 < p) (e : Fin p → Env) (installed : Sampler → Bool) (req : Option Str) (i : Option Sampler) (name : Str)
    (h : initSampler installed req = .ok (i, name)) (d : List (List ℝ) × Option (List ℝ)) (hd : Found hp e i d) :
    Runs (fun r : Fin p => doMC r (e r) i name none) fun r => .ok (if r.val = 0 then some d else none) := by
  have hn := initSampler_eq h
  have h0 : ∀ r : Fin p, r.val = 0 → r = ⟨0, hp⟩ := fun r hr => Fin.ext hr
  match i, hn, hd with
  | none, hn, hd =>
    simp only [key] at hn
    unfold doMC
    simp only [Option.getD_none, hn, if_true]
    refine NoraSpmd.runs_of_eq fun r => ?_
    by_cases hr : r.val = 0
    · rw [h0 r hr]
      rw [show d = _ from hd]
      simp
    · simp [hr]
  | some .polychord, hn, ⟨st0, h1, h2, l, h3, h4, h5⟩ =>
    simp only [key] at hn
    unfold doMC
    simp only [Option.getD_none, hn, show str "polychord" ≠ str "uniform" by decide, if_false, if_true, runInterface]
    have hr := C122_polychord hp (e ⟨0, hp⟩).pc (e ⟨0, hp⟩).abs (fun r => (e r).tmp) (fun r => (e r).outDir) (fun r => (e r).seed)
      (fun r => (e r).settings) st0 h1 l h3 h4
    simp only [fun r => (h2 r).1, fun r => (h2 r).2]
    refine Runs.bind hr ?_
    refine NoraSpmd.runs_of_eq fun r => ?_
    by_cases hr : r.val = 0 <;> simp [hr, h5]
  | some .nessai, hn, ⟨l, h1, h2⟩ =>
    simp only [key] at hn
    unfold doMC
    simp only [Option.getD_none, hn, show str "nessai" ≠ str "uniform" by decide, show str "nessai" ≠ str "polychord" by decide,
      show str "nessai" ≠ str "ultranest" by decide, if_false, if_true, runInterface, runNessai, Bool.false_eq_true]
    refine NoraSpmd.runs_of_eq fun r => ?_
    by_cases hr : r.val = 0
    · rw [h0 r hr]
      simp only [ne_eq, not_true, if_false, if_true, h1, (nessai_rows l).1, h2]
      rfl
    · simp [hr]
  | some .ultranest, hn, ⟨h1, h2, l, h3, h4⟩ =>
    simp only [key] at hn
    unfold doMC
    simp only [Option.getD_none, hn, show str "ultranest" ≠ str "uniform" by decide, show str "ultranest" ≠ str "polychord" by decide,
      if_false, if_true, runInterface]
    obtain ⟨m, rfl, hr⟩ := C122_ultranest hp (e ⟨0, hp⟩).un (e ⟨0, hp⟩).abs (fun r => (e r).tmp) (fun r => (e r).outDir) (fun r => (e r).output) h2 l h3
    simp only [fun r => (h1 r).1, fun r => (h1 r).2]
    refine Runs.bind hr ?_
    refine NoraSpmd.runs_of_eq fun r => ?_
    by_cases hr : r.val = 0 <;> simp [hr, h4]

/-- **C122** (names). Names are compared in lower case, and one that is not of a sampler is refused in all processes. -/
theorem C122_unknown {p : ℕ} (e : Fin p → Env) (i : Option Sampler) (name : Str) (arg : Str)
    (h : lower arg ∉ [str "uniform", str "polychord", str "ultranest", str "nessai"]) :
    Runs (fun r : Fin p => doMC r (e r) i name (some arg)) fun _ => .error .valueError := by
  simp only [List.mem_cons, List.not_mem_nil, or_false, not_or] at h
  unfold doMC
  simp only [Option.getD_some, h.1, h.2.1, h.2.2.1, h.2.2.2, if_false]
  exact Runs.raise _

/-- **C122** is false of the argument `sampler` of `do_MC_sample`: the sampler run is still that of the object. Asked for UltraNest, an object initialised for
PolyChord runs PolyChord; asked for nessai, it hangs if there are several processes; and one initialised for the uniform sampler, asked
for any other, raises `AttributeError`. -/
theorem C122_argument_counterexample {p : ℕ} (hp : 0 < p) (e : Fin p → Env) (arg name : Str) :
    (lower arg = str "ultranest" → lower name = str "polychord" → ∀ r : Fin p,
      doMC r (e r) (some .polychord) name (some arg) = doMC r (e r) (some .polychord) name none) ∧
    (lower arg = str "nessai" → 2 ≤ p → Deadlocks fun r : Fin p => doMC r (e r) (some .polychord) name (some arg)) ∧
    (lower arg = str "polychord" → Runs (fun r : Fin p => doMC r (e r) none name (some arg)) fun _ => .error .attributeError) := by
  refine ⟨fun ha hn r => ?_, fun ha h2 => ?_, fun ha => ?_⟩
  · unfold doMC
    simp only [Option.getD_some, Option.getD_none, ha, hn, show str "ultranest" ≠ str "uniform" by decide, show str "polychord" ≠ str "uniform" by decide,
      show str "ultranest" ≠ str "polychord" by decide, if_false, if_true]
  · refine deadlocks_of_ended ⟨1, by omega⟩ ⟨0, hp⟩ (.ok none) ?_ ?_
    · unfold doMC
      simp only [Option.getD_some, ha, show str "nessai" ≠ str "uniform" by decide, show str "nessai" ≠ str "polychord" by decide,
        show str "nessai" ≠ str "ultranest" by decide, if_false, if_true]
      rfl
    · intro y hy
      unfold doMC at hy
      simp only [Option.getD_some, ha, show str "nessai" ≠ str "uniform" by decide, show str "nessai" ≠ str "polychord" by decide,
        show str "nessai" ≠ str "ultranest" by decide, if_false, if_true, runInterface, ne_eq, not_true] at hy
      cases y <;> cases hy
  · unfold doMC
    simp only [Option.getD_some, ha, show str "polychord" ≠ str "uniform" by decide, if_false, if_true, runInterface]
    exact Runs.raise _

/-! ## Examples -/

/-- Two samples with weights 1 and 3; the first process of a run (where it has rank 0) has its own folder and seed. -/
noncomputable def exEnv (r : ℕ) : Env where
  dim := 1
  unif k := [k]
  pc _ := ⟨[], [[1, -2 * -5, 7], [3, -2 * -6, 8]]⟩
  nessai := [[7, 0, -5, 1]]
  un _ := ([1, 0], [[7], [8]], [-5, -6])
  abs s := s
  tmp := str "tmp"
  outDir := if r = 0 then some (str "out/0/") else none
  seed := some r
  settings := ⟨-1, none, none, []⟩
  output := none

/-- C122: PolyChord, by its default name, in three processes; the seed is 0 in all of them. -/
example : Runs (fun r : Fin 3 => doMC r (exEnv r) (some .polychord) (str "polychord") none) fun r =>
    .ok (if r.val = 0 then some ([[7], [8]], some [1, 3]) else none) :=
  C122_draw (by norm_num) _ (fun _ => true) none _ _ (by decide +kernel) _
    ⟨⟨-1, some (folder id (str "tmp") (some (str "out/0/"))), some 0, []⟩, ⟨rfl, rfl, rfl, fun n hn => hn, fun hn => by cases hn⟩, fun _ => ⟨rfl, rfl⟩,
      [(1, -5, [7]), (3, -6, [8])], by simp, rfl, rfl⟩

/-- C122: UltraNest; the point of weight zero is dropped. -/
example : Runs (fun r : Fin 3 => doMC r (exEnv r) (some .ultranest) (str "UltraNest") none) fun r =>
    .ok (if r.val = 0 then some ([[7]], some [1]) else none) :=
  C122_draw (by norm_num) _ (fun _ => true) (some (str "UltraNest")) _ _ (by decide +kernel) _
    ⟨fun _ => ⟨rfl, rfl⟩, fun _ _ => rfl, [(1, [7], -5), (0, [8], -6)], rfl, by simp⟩

/-- C122: nessai, and the uniform sampler. -/
example : Runs (fun r : Fin 3 => doMC r (exEnv r) (some .nessai) (str "nessai") none) fun r =>
    .ok (if r.val = 0 then some ([[7]], none) else none) :=
  C122_draw (by norm_num) _ (fun _ => true) (some (str "nessai")) _ _ (by decide +kernel) _ ⟨[([7], 0, -5, 1)], rfl, rfl⟩

example : Runs (fun r : Fin 3 => doMC r (exEnv r) none (str "uniform") none) fun r =>
    .ok (if r.val = 0 then some ((List.range 1000).map fun k : ℕ => [(k : ℝ)], none) else none) :=
  C122_draw (by norm_num) _ (fun _ => true) (some (str "uniform")) _ _ (by decide +kernel) _ (by simp only [Found, exEnv, Nat.mul_one])

example : Deadlocks fun r : Fin 3 => doMC r (exEnv r) (some .polychord) (str "polychord") (some (str "nessai")) :=
  (C122_argument_counterexample (by norm_num) _ _ _).2.1 (by decide +kernel) (by norm_num)

example : Runs (fun r : Fin 3 => doMC r (exEnv r) none (str "uniform") (some (str "dynesty"))) fun _ => .error .valueError :=
  C122_unknown _ _ _ _ (by decide +kernel)

/-- C122: the main process has evaluated nothing. -/
example : Runs (fun r : Fin 2 => runPolychord r (fun _ => ⟨[[], [([1], 2)]], []⟩) id [] none true none ⟨-1, none, none, []⟩) fun r =>
    if r.val = 0 then .error .valueError else .ok (⟨-1, some (folder id [] none), none, []⟩, ⟨none, none⟩) :=
  C122_keep_all_counterexample (by norm_num) _ _ (fun _ => []) (fun _ => none) (fun _ => none) (fun _ => ⟨-1, none, none, []⟩) _
    ⟨rfl, rfl, rfl, fun _ h => (by cases h), fun _ => rfl⟩ (fun r => if r.val = 0 then [] else [([1], 2)]) rfl ⟨0, rfl⟩ ⟨1, by simp⟩

/-- C122: two evaluations in all. -/
example : ∃ X y, Runs (fun r : Fin 2 => runPolychord r (fun _ => ⟨[[([3], 4)], [([1], 2)]], [[1, -2 * -5, 7], [3, -2 * -6, 8]]⟩) id [] none true none ⟨-1, none, none, []⟩)
      (fun r => .ok (⟨-1, some (folder id [] none), none, []⟩, ⟨if r.val = 0 then some (X, y) else none,
        if r.val = 0 then some (.rows [[7], [8]] [-5, -6] [1, 3]) else none⟩)) ∧ X.length = y.length ∧ ([3], 4) ∈ X.zip y := by
  obtain ⟨X, y, h1, h2, h3⟩ := C122_keep_all_partial (p := 2) (by norm_num) (fun _ => ⟨[[([3], 4)], [([1], 2)]], [[1, -2 * -5, 7], [3, -2 * -6, 8]]⟩) id (fun _ => [])
    (fun _ => none) (fun _ => none) (fun _ => ⟨-1, none, none, []⟩) ⟨-1, some (folder id [] none), none, []⟩
    ⟨rfl, rfl, rfl, fun _ h => (by cases h), fun _ => rfl⟩ [(1, -5, [7]), (3, -6, [8])] (by simp) rfl (fun r => if r.val = 0 then [([3], 4)] else [([1], 2)]) rfl
    (fun r => by split <;> simp)
  exact ⟨X, y, h1, h2, (h3 _ _).mpr ⟨0, by simp⟩⟩

/-- Three processes, PolyChord with the settings of the first. -/
example : Runs (fun r : Fin 3 => runPolychord r (fun _ => ⟨[], [[1, -2 * -5, 7], [3, -2 * -6, 8]]⟩) id [] none false none ⟨-1, none, none, []⟩) fun r =>
    .ok (⟨-1, some (folder id [] none), none, []⟩, { all := none, mc := if r.val = 0 then some (.rows [[7], [8]] [-5, -6] [1, 3]) else none }) :=
  C122_polychord (p := 3) (by norm_num) (fun _ => ⟨[], [[1, -2 * -5, 7], [3, -2 * -6, 8]]⟩) id (fun _ => []) (fun _ => none) (fun _ => none)
    (fun _ => ⟨-1, none, none, []⟩) ⟨-1, some (folder id [] none), none, []⟩ ⟨rfl, rfl, rfl, fun _ h => (by cases h), fun _ => rfl⟩
    [(1, -5, [7]), (3, -6, [8])] (by simp) rfl

/-- Three processes, UltraNest: the point without weight is dropped. -/
example : ∃ m : List (ℝ × List ℝ × ℝ), m = [(1, [7], -5), (0, [8], -6)].filter (fun q => q.1 ≠ 0) ∧
    Runs (fun r : Fin 3 => runUltranest r (fun _ => ([1, 0], [[7], [8]], [-5, -6])) id [] none false none) fun r =>
      .ok (if r.val = 0 then some (folder id [] none).1 else none, if r.val = 0 then some (m.map fun q => q.2.1, m.map fun q => q.2.2, m.map fun q => q.1) else none) :=
  C122_ultranest (p := 3) (by norm_num) _ id (fun _ => []) (fun _ => none) (fun _ => none) (fun _ _ => rfl) [(1, [7], -5), (0, [8], -6)] rfl

end GPry.NsRun
