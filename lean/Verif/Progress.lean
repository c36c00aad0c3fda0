import Verif.SpmdLemmas
import Verif.Ext
import Mathlib.Algebra.Order.BigOperators.Group.List
import Mathlib.Algebra.Order.Field.Rat
import Mathlib.Algebra.BigOperators.Fin
import Mathlib.Tactic.Ring
import Mathlib.Tactic.Linarith
import Mathlib.Tactic.FinCases
import Mathlib.Tactic.NormNum

set_option linter.all false

/-!
# The progress table (progress.py)

Models progress.py:10-164: the table, adding rows, filling the last row, and `mpi_sync`.

Simplifications: one number per cell (the code stores a *list* in `convergence_crit_value`); data types of pandas
(integers or floats) left out.
-/

namespace GPry.Progress
open Spmd Spmd.Prog

/-- progress.py:17-41 `_colnames`. -/
inductive Col
  | nTotal | nFinite | timeAcquire | evalsAcquire | timeTruth | evalsTruth | timeFit | evalsFit
  | timeConvergence | evalsConvergence | critValue
deriving DecidableEq, Repr

/-- `IndexError`: `iloc[-1]` of an empty table. -/
inductive PErr
  | indexError
deriving DecidableEq

section
variable {K : Type} [Field K] [LinearOrder K]

/-- A row, as a function of the column. -/
abbrev Row (K : Type) := Col → Ext K

/-- The table, newest row first. -/
abbrev Table (K : Type) := List (Row K)

/-- progress.py:58-66 `add_iteration`. -/
def addIteration (t : Table K) : Table K := (fun _ => .nan) :: t

/-- `self.data.iloc[-1, col] = v` -/
def setLast (c : Col) (v : Ext K) : Table K → Except PErr (Table K)
  | [] => .error .indexError
  | row :: t => .ok (Function.update row c v :: t)

/-- progress.py:68-100, all the `add_…` methods: some cells of the last row. -/
def fill : List (Col × Ext K) → Table K → Except PErr (Table K)
  | [], t => .ok t
  | (c, v) :: cs, t => (setLast c v t).bind (fill cs)

/-- progress.py:150-164: how the values are combined. -/
inductive Op
  | root | max | sum
deriving DecidableEq

/-- The numbers among some values (`np.isfinite`). -/
def finites : List (Ext K) → List K
  | [] => []
  | .fin v :: vs => v :: finites vs
  | _ :: vs => finites vs

/-- progress.py:151-163, in the main process (Python's `max` and `sum` of finite numbers). -/
def combine (op : Op) (vs : List (Ext K)) : Ext K :=
  match op with
  | .root => vs.headD .nan
  | .max => match finites vs with
    | [] => .nan
    | a :: l => .fin (l.foldl Max.max a)
  | .sum => match finites vs with
    | [] => .nan
    | a :: l => .fin (l.foldl (· + ·) (0 + a))

/-- progress.py:150-164 `_bcast_operation`. -/
def bcastOp (c : Col) (op : Op) (t : Table K) : Prog PErr (Table K) :=
  match t with
  | [] => raise .indexError
  | row :: _ => do
    let vs ← collect (row c)
    let v ← share 0 (match vs with | some l => combine op l | none => .nan)
    Prog.fin (setLast c v t)

/-- progress.py:115-123: the columns that are combined, in the order of the calls. -/
def plan : List (Col × Op) :=
  [(.timeAcquire, .max), (.evalsAcquire, .sum), (.timeTruth, .max), (.evalsTruth, .sum), (.timeFit, .max),
   (.evalsFit, .sum), (.timeConvergence, .max), (.evalsConvergence, .sum), (.critValue, .root)]

def syncCols : List (Col × Op) → Table K → Prog PErr (Table K)
  | [], t => do
    sync
    pure t
  | (c, op) :: cs, t => do
    let t' ← bcastOp c op t
    syncCols cs t'

/-- progress.py:102-124 `mpi_sync`, with `p` processes. -/
def mpiSync (p : ℕ) (t : Table K) : Prog PErr (Table K) := if p ≤ 1 then pure t else syncCols plan t

end

/-! ## C55 -/

section Props
variable {K : Type} [Field K] [LinearOrder K] {p : ℕ}

theorem mem_finites {vs : List (Ext K)} {v : K} : v ∈ finites vs ↔ Ext.fin v ∈ vs := by
  induction vs with
  | nil => simp [finites]
  | cons a l ih => cases a <;> simp [finites, ih]

theorem foldl_max_spec : ∀ (l : List K) (a : K), (∀ v ∈ a :: l, v ≤ l.foldl Max.max a) ∧ l.foldl Max.max a ∈ a :: l
  | [], a => by simp
  | b :: l, a => by
    obtain ⟨h1, h2⟩ := foldl_max_spec l (Max.max a b)
    rw [List.foldl_cons]
    constructor
    · intro v hv
      rcases List.mem_cons.1 hv with rfl | hv
      · exact (le_max_left _ b).trans (h1 _ (by simp))
      · rcases List.mem_cons.1 hv with rfl | hv
        · exact (le_max_right a _).trans (h1 _ (by simp))
        · exact h1 _ (by simp [hv])
    · rcases List.mem_cons.1 h2 with h | h
      · rw [h]
        rcases max_choice a b with h' | h' <;> rw [h'] <;> simp
      · simp [h]

theorem foldl_add : ∀ (l : List K) (a : K), l.foldl (· + ·) a = a + l.sum
  | [], a => by simp
  | b :: l, a => by rw [List.foldl_cons, foldl_add l, List.sum_cons]; ring

theorem runs_syncCols (hp : 0 < p) : ∀ (cs : List (Col × Op)), (cs.map Prod.fst).Nodup → ∀ (row : Fin p → Row K) (t : Fin p → Table K),
    ∃ row' : Fin p → Row K, Runs (fun r => syncCols cs (row r :: t r)) (fun r => .ok (row' r :: t r)) ∧
      (∀ c op, (c, op) ∈ cs → ∀ r, row' r c = combine op (List.ofFn fun s => row s c)) ∧
      (∀ c, c ∉ cs.map Prod.fst → ∀ r, row' r c = row r c)
  | [], _, row, t => ⟨row, Runs.bind runs_sync (Runs.pure _), by simp, by simp⟩
  | (c, op) :: cs, hnd, row, t => by
    rw [List.map_cons, List.nodup_cons] at hnd
    have hb : Runs (fun r : Fin p => bcastOp c op (row r :: t r))
        fun r => .ok (Function.update (row r) c (combine op (List.ofFn fun s => row s c)) :: t r) := by
      refine Runs.bind (runs_collect fun r : Fin p => row r c) (Runs.bind (runs_share ⟨0, hp⟩ _) ?_)
      simp only [if_true]
      exact Runs.fin _
    obtain ⟨row', h1, h2, h3⟩ := runs_syncCols hp cs hnd.2
      (fun r => Function.update (row r) c (combine op (List.ofFn fun s => row s c))) t
    refine ⟨row', Runs.bind hb h1, ?_, ?_⟩
    · intro c' op' hm r
      rcases List.mem_cons.1 hm with h | h
      · cases h
        rw [h3 c hnd.1 r, Function.update_self]
      · have hne : c' ≠ c := by
          rintro rfl
          exact hnd.1 (List.mem_map.2 ⟨_, h, rfl⟩)
        rw [h2 c' op' h r]
        simp only [Function.update_of_ne hne]
    · intro c' hc' r
      simp only [List.map_cons, List.mem_cons, not_or] at hc'
      rw [h3 c' hc'.2 r, Function.update_of_ne hc'.1]

/-- **C55**: `mpi_sync` with at least two processes ends in all of them, keeps the previous rows and the two columns with
numbers of points, and in the last row all the processes hold: for the times, the largest of the numbers recorded by the
processes (NaN if there is none); for the numbers of evaluations, their sum; for the convergence criterion, what the main
process had. -/
theorem C55_mpi_sync (hp : 1 < p) (row : Fin p → Row K) (t : Fin p → Table K) :
    ∃ row' : Fin p → Row K, Runs (fun r => mpiSync p (row r :: t r)) (fun r => .ok (row' r :: t r)) ∧
      (∀ r, row' r .nTotal = row r .nTotal ∧ row' r .nFinite = row r .nFinite) ∧
      (∀ c ∈ [Col.timeAcquire, .timeTruth, .timeFit, .timeConvergence], ∀ r,
        ((∀ s v, row s c ≠ .fin v) → row' r c = .nan) ∧
        ((∃ s v, row s c = .fin v) → ∃ m, row' r c = .fin m ∧ (∃ s, row s c = .fin m) ∧ ∀ s v, row s c = .fin v → v ≤ m)) ∧
      (∀ c ∈ [Col.evalsAcquire, .evalsTruth, .evalsFit, .evalsConvergence], ∀ r,
        ((∀ s v, row s c ≠ .fin v) → row' r c = .nan) ∧
        ((∃ s v, row s c = .fin v) →
          row' r c = .fin (∑ s, match row s c with | .fin v => v | _ => 0))) ∧
      (∀ r, row' r .critValue = row ⟨0, by omega⟩ .critValue) := by
  obtain ⟨row', h1, h2, h3⟩ := runs_syncCols (by omega) plan (by decide) row t
  have hnil : ∀ c, (∀ s v, row s c ≠ .fin v) ↔ finites (List.ofFn fun s => row s c) = [] := by
    intro c
    rw [List.eq_nil_iff_forall_not_mem]
    constructor
    · intro h v hv
      rw [mem_finites, List.mem_ofFn] at hv
      obtain ⟨s, hs⟩ := hv
      exact h s v hs
    · intro h s v hs
      apply h v
      rw [mem_finites, List.mem_ofFn]
      exact ⟨s, hs⟩
  have hsum : ∀ c, (finites (List.ofFn fun s => row s c)).sum = ∑ s, match row s c with | .fin v => v | _ => 0 := by
    intro c
    have : ∀ l : List (Ext K), (finites l).sum = (l.map fun x => match x with | .fin v => v | _ => 0).sum := by
      intro l
      induction l with
      | nil => rfl
      | cons a l ih => cases a <;> simp [finites, ih]
    rw [this, List.map_ofFn, List.sum_ofFn]
    rfl
  refine ⟨row', ?_, ?_, ?_, ?_, ?_⟩
  · unfold mpiSync
    simp only [if_neg (show ¬ p ≤ 1 by omega)]
    exact h1
  · exact fun r => ⟨h3 _ (by decide) r, h3 _ (by decide) r⟩
  · intro c hc r
    have hc' : (c, Op.max) ∈ plan := by
      simp only [List.mem_cons, List.not_mem_nil, or_false] at hc
      rcases hc with rfl | rfl | rfl | rfl <;> decide
    have := h2 c .max hc' r
    unfold combine at this
    dsimp only at this
    constructor
    · intro h
      rw [(hnil c).1 h] at this
      exact this
    · rintro ⟨s, v, hs⟩
      rcases hf : finites (List.ofFn fun s => row s c) with _ | ⟨a, l⟩
      · exact absurd hs ((hnil c).2 hf s v)
      · rw [hf] at this
        obtain ⟨g1, g2⟩ := foldl_max_spec l a
        refine ⟨_, this, ?_, ?_⟩
        · rw [← hf, mem_finites, List.mem_ofFn] at g2
          exact g2
        · intro s v hs
          apply g1
          rw [← hf, mem_finites, List.mem_ofFn]
          exact ⟨s, hs⟩
  · intro c hc r
    have hc' : (c, Op.sum) ∈ plan := by
      simp only [List.mem_cons, List.not_mem_nil, or_false] at hc
      rcases hc with rfl | rfl | rfl | rfl <;> decide
    have := h2 c .sum hc' r
    unfold combine at this
    dsimp only at this
    constructor
    · intro h
      rw [(hnil c).1 h] at this
      exact this
    · rintro ⟨s, v, hs⟩
      rcases hf : finites (List.ofFn fun s => row s c) with _ | ⟨a, l⟩
      · exact absurd hs ((hnil c).2 hf s v)
      · rw [hf] at this
        rw [this, ← hsum c, hf]
        dsimp only
        rw [foldl_add, List.sum_cons, zero_add]
  · intro r
    have := h2 .critValue .root (by decide) r
    rw [this]
    unfold combine
    obtain ⟨q, rfl⟩ : ∃ q, p = q + 1 := ⟨p - 1, by omega⟩
    rw [List.ofFn_succ]
    rfl

/-- C55: with one process nothing is changed. -/
theorem C55_one_process (t : Fin 1 → Table K) : Runs (fun r => mpiSync 1 (t r)) fun r => .ok (t r) := Runs.pure _

/-- C55: before any row is added, all the processes raise (`IndexError`), none is left waiting. -/
theorem C55_empty (hp : 1 < p) : Runs (fun _ : Fin p => mpiSync p ([] : Table K)) fun _ => .error .indexError := by
  unfold mpiSync
  rw [if_neg (by omega)]
  exact Runs.bind_error (e := fun _ => PErr.indexError) (Runs.raise _) _

/-- **C55**: rows are added by `add_iteration` only: the other methods keep their number and all but the last one, and
in the last one all cells but the ones filled. -/
theorem C55_fill (cs : List (Col × Ext K)) (row : Row K) (t : Table K) :
    ∃ row', fill cs (row :: t) = .ok (row' :: t) ∧ (∀ c, c ∉ cs.map Prod.fst → row' c = row c) ∧
      ((cs.map Prod.fst).Nodup → ∀ c v, (c, v) ∈ cs → row' c = v) := by
  induction cs generalizing row with
  | nil => exact ⟨row, rfl, by simp, by simp⟩
  | cons q cs ih =>
    obtain ⟨c, v⟩ := q
    obtain ⟨row', h1, h2, h3⟩ := ih (Function.update row c v)
    refine ⟨row', h1, ?_, ?_⟩
    · intro c' hc'
      simp only [List.map_cons, List.mem_cons, not_or] at hc'
      rw [h2 c' hc'.2, Function.update_of_ne hc'.1]
    · intro hnd c' v' hm
      rw [List.map_cons, List.nodup_cons] at hnd
      rcases List.mem_cons.1 hm with h | h
      · cases h
        rw [h2 c hnd.1, Function.update_self]
      · exact h3 hnd.2 c' v' h

/-- C55: example with two processes: the second one has not recorded the truth evaluations (only the main one does). -/
example : ∃ row' : Fin 2 → Row ℚ,
    Runs (fun r : Fin 2 => mpiSync 2 [fun c => match c with
      | .timeAcquire => .fin (2 + r.val : ℚ) | .evalsAcquire => .fin 10 | .timeTruth => if r = 0 then .fin 5 else .nan
      | _ => .nan]) (fun r => .ok [row' r]) ∧
    (∀ r, row' r .timeAcquire = .fin 3) ∧ (∀ r, row' r .evalsAcquire = .fin 20) ∧ ∀ r, row' r .timeTruth = .fin 5 := by
  obtain ⟨row', h1, -, h3, h4, -⟩ := C55_mpi_sync (K := ℚ) (p := 2) (by decide)
    (fun r c => match c with
      | .timeAcquire => .fin (2 + r.val : ℚ) | .evalsAcquire => .fin 10 | .timeTruth => if r = 0 then .fin 5 else .nan
      | _ => .nan) (fun _ => [])
  refine ⟨row', h1, fun r => ?_, fun r => ?_, fun r => ?_⟩
  · obtain ⟨m, hm, ⟨s, hs⟩, hle⟩ := (h3 .timeAcquire (by decide) r).2 ⟨0, _, rfl⟩
    rw [hm]
    have := hle 1 _ rfl
    simp only [Ext.fin.injEq] at hs
    fin_cases s
    · norm_num at hs this; linarith
    · norm_num at hs; rw [← hs]
  · rw [(h4 .evalsAcquire (by decide) r).2 ⟨0, _, rfl⟩]
    norm_num [Fin.sum_univ_two]
  · obtain ⟨m, hm, ⟨s, hs⟩, hle⟩ := (h3 .timeTruth (by decide) r).2 ⟨0, _, rfl⟩
    rw [hm]
    fin_cases s
    · simp at hs; rw [← hs]
    · simp at hs

end Props

example : Runs (fun r : Fin 1 => mpiSync 1 ([fun _ => .fin 4] : Table ℚ)) fun r => .ok [fun _ => .fin 4] := C55_one_process fun _ => [fun _ => .fin 4]

example : Runs (fun _ : Fin 3 => mpiSync 3 ([] : Table ℚ)) fun _ => .error .indexError := C55_empty (by decide)

end GPry.Progress
