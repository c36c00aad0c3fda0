import Verif.SetupProps
import Verif.McSampProps

set_option linter.all false

/-!
# Reading the last MC sample in all its forms (gpry/run.py:1716-1745, gpry/mc.py:484-530)

`lastMc` (`Setup.lean`) is the call without GetDist, `toGetdist` (`McSamp.lean`) the conversion; here is the whole of `last_mc_samples`, with its three
arguments and the errors of the conversion. GetDist is installed; the object that it makes of the arguments is not modelled.
-/

namespace GPry.McRead

open GPry Cobaya Setup McSamp

inductive RErr
  | attributeError | keyError | typeError | valueError | indexError
deriving DecidableEq, Repr

/-- Errors of the other modules. -/
def ofS : SErr → RErr
  | .typeError => .typeError
  | .valueError => .valueError
  | .indexError => .indexError
  | .keyError => .keyError

/-- Arguments of `last_mc_samples`. -/
structure Call where
  copy : Bool := true
  asPandas : Bool := false
  asGetdist : Bool := false
deriving DecidableEq

/-- What it returns: the dictionary (`None` before the first sample), the columns of the table, the arguments given to GetDist. -/
inductive Res (K : Type)
  | dict (d : Option (Dict String (Col K)))
  | table (d : Dict String (Col K))
  | getdist (g : GSamples K)

/-- `samples_dict.get(k)`; simplification: a table there counts as nothing. -/
def vecOf {K : Type} (d : Dict String (Col K)) (k : String) : Option (List K) :=
  match get d k with
  | some (.vec l) => some l
  | _ => none

variable {K : Type} [One K] [Sub K] [Neg K] [LinearOrder K]

/-- mc.py:484-530 called as in run.py:1737-1742: `get` of `None` raises AttributeError, then the keys `X` and `w` are asked for, then the bounds. -/
def getdistOf (tol : K) (params : List (String × String)) (bounds : Option (List (K × K))) (stored : Option (Dict String (Col K))) : Except RErr (GSamples K) :=
  match stored with
  | none => .error .attributeError
  | some d =>
    match get d "X" with
    | some (.mat X) =>
      match get d "w" with
      | none => .error .keyError
      | some _ =>
        match toGetdist tol (.labelled params) bounds X (vecOf d "w") (vecOf d "logpost") (vecOf d "logprior") (vecOf d "loglike") with
        | .ok g => .ok g
        | .error _ => .error .typeError
    | some _ => .error .typeError
    | none => .error .keyError

/-- run.py:1716-1745 `last_mc_samples`: the result, and the stored sample afterwards. `params` are names and labels of the parameters. -/
def read (tol : K) (params : List (String × String)) (bounds : Option (List (K × K))) (c : Call) (stored : Option (Dict String (Col K))) :
    Except RErr (Res K) × Option (Dict String (Col K)) :=
  if c.asPandas && c.asGetdist then (.error .valueError, stored)
  else if c.asPandas then
    let r := lastMc (params.map Prod.fst) c.copy true stored
    (match r.1 with
      | .ok (some t) => .ok (.table t)
      | .ok none => .error .typeError
      | .error e => .error (ofS e), r.2)
  else if c.asGetdist then
    (match getdistOf tol params bounds stored with
      | .ok g => .ok (.getdist g)
      | .error e => .error e, stored)
  else (.ok (.dict stored), stored)

/-- Calls one after the other: all results, and the stored sample at the end. -/
def readAll (tol : K) (params : List (String × String)) (bounds : Option (List (K × K))) :
    List Call → Option (Dict String (Col K)) → List (Except RErr (Res K)) × Option (Dict String (Col K))
  | [], s => ([], s)
  | c :: cs, s =>
    let r := read tol params bounds c s
    let q := readAll tol params bounds cs r.2
    (r.1 :: q.1, q.2)

/-! ## C90 -/

theorem read_kept (tol : K) (params : List (String × String)) (bounds : Option (List (K × K))) (c : Call)
    (h : c.asPandas = true → c.asGetdist = false → c.copy = true) (s : Option (Dict String (Col K))) : (read tol params bounds c s).2 = s := by
  obtain ⟨a, b, g⟩ := c
  unfold read
  cases b <;> cases g <;> try rfl
  have : a = true := h rfl rfl
  subst this
  show (lastMc _ true true s).2 = s
  unfold lastMc
  cases s <;> rfl

/-- **C90** (partial: no `as_pandas=True, copy=False`): any calls, in any order and form (also those that raise): each returns what it would return as the first one, and
the stored sample is as before. -/
theorem C90_reads_partial (tol : K) (params : List (String × String)) (bounds : Option (List (K × K))) (calls : List Call)
    (h : ∀ c ∈ calls, c.asPandas = true → c.asGetdist = false → c.copy = true) (s : Option (Dict String (Col K))) :
    readAll tol params bounds calls s = (calls.map fun c => (read tol params bounds c s).1, s) := by
  induction calls with
  | nil => rfl
  | cons c cs ih =>
    unfold readAll
    dsimp only
    rw [read_kept tol params bounds c (h c (by simp)), ih fun c' hc' => h c' (by simp [hc'])]
    rfl

/-- **C90**: both forms at once are refused, and nothing is changed, not even without a copy. -/
theorem C90_both (tol : K) (params : List (String × String)) (bounds : Option (List (K × K))) (copy : Bool) (s : Option (Dict String (Col K))) :
    read tol params bounds ⟨copy, true, true⟩ s = (.error .valueError, s) := rfl

/-- **C90** (partial: different names of parameters, none that of another column; bounds known): the table and the samples for GetDist have the same coordinates and
weights (ones in the table if none are stored), and what GetDist is given as `loglikes` is minus the column of the table. -/
theorem C90_forms_partial [Inhabited K] (tol : K) (params : List (String × String)) (hnd : (params.map Prod.fst).Nodup)
    (hres : ∀ s ∈ ["w", "X", "logpost", "logprior", "loglike"], s ∉ params.map Prod.fst) (bs : List (K × K)) (c c' : Bool)
    (d : Dict String (Col K)) (X : List (List K)) (hX : get d "X" = some (.mat X)) (hx : ∀ x ∈ X, x.length = params.length)
    (w : Option (List K)) (hw : get d "w" = some (w.elim .none .vec)) (y : List K) (hy : get d "logpost" = some (.vec y)) (hyl : y.length = X.length)
    (h2 : ∀ v, vecOf d "logprior" = some v → v.length = X.length) (h3 : ∀ v, vecOf d "loglike" = some v → v.length = X.length) :
    ∃ t g, (read tol params (some bs) ⟨c, true, false⟩ (some d)).1 = .ok (.table t) ∧ (read tol params (some bs) ⟨c', false, true⟩ (some d)).1 = .ok (.getdist g) ∧
      g.rows.length = X.length ∧
      (∀ j (hj : j < params.length), get t params[j].1 = some (.vec (g.rows.map fun r => r.getD j default))) ∧
      get t "w" = some (.vec (g.weights.getD (List.replicate g.rows.length 1))) ∧
      ∃ v, get t "logpost" = some (.vec v) ∧ g.loglikes = some (v.map (-·)) := by
  have hlen : (params.map Prod.fst).length = params.length := List.length_map _
  obtain ⟨t, ht, htj, htw, -, hto⟩ := C90_table_partial (params.map Prod.fst) hnd hres d c X hX (by rw [hlen]; exact hx) w hw y hy
  have hvy : vecOf d "logpost" = some y := by unfold vecOf; rw [hy]
  have hvw : vecOf d "w" = w := by unfold vecOf; rw [hw]; cases w <;> rfl
  obtain ⟨g, cols, hg, hgw, hgl, -, -, hgr, hrow, -⟩ := C94_getdist_partial tol (.labelled params) bs X w (some y) (vecOf d "logprior") (vecOf d "loglike")
    (by rintro v hv; cases hv; exact hyl) h2 h3
  have hrows : ∀ j, j < params.length → (g.rows.map fun r => r.getD j default) = X.map fun x => x.getD j default := by
    intro j hj
    apply List.ext_getElem
    · rw [List.length_map, List.length_map, hgr]
    · intro i hi1 hi2
      rw [List.length_map] at hi1 hi2
      rw [List.getElem_map, List.getElem_map]
      have hr := hrow i hi2
      rw [List.getElem?_eq_getElem hi1, Option.some_inj] at hr
      have hl : j < X[i].length := by rw [hx _ (List.getElem_mem hi2)]; exact hj
      rw [hr, List.getD_eq_getElem?_getD, List.getD_eq_getElem?_getD, List.getElem?_append_left hl]
  refine ⟨t, g, ?_, ?_, hgr, ?_, ?_, y, ?_, hgl⟩
  · unfold read
    simp [ht]
  · have : getdistOf tol params (some bs) (some d) = .ok g := by
      unfold getdistOf
      simp only [hX, hw, hvy, hvw, hg]
    unfold read
    simp [this]
  · intro j hj
    have := htj j (by rw [hlen]; exact hj)
    rw [List.getElem_map] at this
    rw [this, hrows j hj]
  · rw [htw, hgw, hgr, hyl]
  · have hm := hres "logpost" (by simp)
    rw [hto "logpost" (by decide) (by decide) hm, hy]

/-- **C90** is false: after `as_pandas=True, copy=False` the sample cannot be given to GetDist any more either. -/
theorem C90_getdist_counterexample (copy : Bool) :
    (readAll (1 / 10 : ℚ) [("a", "A"), ("b", "B")] (some [(0, 5), (0, 5)]) [⟨copy, false, true⟩] (some exSample)).1.map (fun r => r.toBool) = [true] ∧
    (readAll (1 / 10 : ℚ) [("a", "A"), ("b", "B")] (some [(0, 5), (0, 5)]) [⟨false, true, false⟩, ⟨copy, false, true⟩] (some exSample)).1.map
      (fun r => match r with | .ok _ => none | .error e => some e) = [none, some .keyError] := by
  cases copy <;> exact ⟨by decide +kernel, by decide +kernel⟩

/-- **C90**: before the first sample, the dictionary is `None` and both conversions raise, with different errors. -/
theorem C90_nothing (tol : K) (params : List (String × String)) (bounds : Option (List (K × K))) (copy : Bool) :
    (read tol params bounds ⟨copy, false, false⟩ none).1 = .ok (.dict none) ∧ (read tol params bounds ⟨copy, true, false⟩ none).1 = .error .typeError ∧
    (read tol params bounds ⟨copy, false, true⟩ none).1 = .error .attributeError := ⟨rfl, rfl, rfl⟩

/-- Two tables, two GetDist samples and the dictionary, in between a refused call. -/
example : readAll (1 / 10 : ℚ) [("a", "A"), ("b", "B")] (some [(0, 5), (0, 5)])
    [⟨true, true, false⟩, ⟨false, false, true⟩, ⟨false, true, true⟩, ⟨false, false, false⟩, ⟨true, true, false⟩] (some exSample) =
    ([⟨true, true, false⟩, ⟨false, false, true⟩, ⟨false, true, true⟩, ⟨false, false, false⟩, ⟨true, true, false⟩].map fun c =>
      (read (1 / 10 : ℚ) [("a", "A"), ("b", "B")] (some [(0, 5), (0, 5)]) c (some exSample)).1, some exSample) :=
  C90_reads_partial _ _ _ _ (by decide) _

example : ∃ t g, (read (1 / 10 : ℚ) [("a", "A"), ("b", "B")] (some [(0, 5), (0, 5)]) ⟨false, true, false⟩ (some exSample)).1 = .ok (.table t) ∧
    (read (1 / 10 : ℚ) [("a", "A"), ("b", "B")] (some [(0, 5), (0, 5)]) ⟨true, false, true⟩ (some exSample)).1 = .ok (.getdist g) ∧
    get t "b" = some (.vec (g.rows.map fun r => r.getD 1 default)) := by
  obtain ⟨t, g, h1, h2, -, h3, -⟩ := C90_forms_partial (1 / 10 : ℚ) [("a", "A"), ("b", "B")] (by decide) (by decide) [(0, 5), (0, 5)] false true exSample
    [[1, 2], [3, 4]] rfl (by simp) none rfl [5, 6] rfl rfl (by intro v hv; cases hv) (by intro v hv; cases hv)
  exact ⟨t, g, h1, h2, h3 1 (by decide)⟩

end GPry.McRead
