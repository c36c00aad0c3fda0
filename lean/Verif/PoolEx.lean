import Verif.PoolProps2
import Mathlib.Order.Fin.Basic
import Mathlib.Data.List.Sort

/-!
# Pools: cases that meet the hypotheses of the theorems, and counterexamples

Values are in `Fin 1001` (`0` for `-inf`, `1000` for `+inf`).
-/

set_option linter.all false

namespace GPry.Ranked

/-- A sorting function for the examples. -/
def exSort {V : Type*} [LinearOrder V] [BoundedOrder V] (vs : List (Option V)) : List ℕ :=
  (List.range vs.length).insertionSort fun i j => (vs.getD j none).getD ⊥ ≤ (vs.getD i none).getD ⊥

theorem exSort_sorts {V : Type*} [LinearOrder V] [BoundedOrder V] : SortsDesc (exSort (V := V)) := by
  intro vs
  have hp : (exSort (vs.map some)).Perm (List.range vs.length) := by
    have := List.perm_insertionSort (fun i j => ((vs.map some).getD j none).getD ⊥ ≤ ((vs.map some).getD i none).getD ⊥)
      (List.range (vs.map some).length)
    simpa [exSort] using this
  refine ⟨hp, ?_⟩
  have htot : Std.Total (α := ℕ) (fun i j => ((vs.map some).getD j none).getD ⊥ ≤ ((vs.map some).getD i none).getD ⊥) :=
    ⟨fun a b => le_total _ _⟩
  have htr : IsTrans ℕ (fun i j => ((vs.map some).getD j none).getD ⊥ ≤ ((vs.map some).getD i none).getD ⊥) :=
    ⟨fun a b c h1 h2 => h2.trans h1⟩
  have hs := List.pairwise_insertionSort
    (fun i j => ((vs.map some).getD j none).getD ⊥ ≤ ((vs.map some).getD i none).getD ⊥) (List.range (vs.map some).length)
  rw [List.pairwise_filterMap]
  refine List.Pairwise.imp ?_ hs
  intro i j h a ha b hb
  simp only [List.getD_eq_getElem?_getD, List.getElem?_map, ha, hb, Option.map_some, Option.getD_some] at h
  exact h

/-! ## An example of conditioned acquisition: lies at a distance of at most 1 reduce the value -/

def exBase : ℕ → ℕ := fun x => [100, 90, 80, 70, 0, 55, 300].getD x 5

def exCond (pre : List (ℕ × Unit)) (x : ℕ) (_ : Unit) : Option (Fin 1001) :=
  some ⟨min 999 (exBase x / (1 + (pre.filter fun q => decide (q.1 ≤ x + 1 ∧ x ≤ q.1 + 1)).length)), by omega⟩

def exP : Cfg ℕ Unit (Fin 1001) := ⟨exCond, exSort⟩

theorem exP_nan : ∀ pre x y, exP.cond pre x y ≠ none := by intro pre x y; simp [exP, exCond]

theorem exP_inf : ∀ pre x y, exP.cond pre x y ≠ some ⊤ := by
  intro pre x y h
  simp only [exP, exCond, Option.some.injEq] at h
  have := congrArg Fin.val h
  simp at this
  omega

theorem exP_shrinks : Shrinks exP.cond := by
  intro pre q x y
  simp only [exP, exCond, leV, geV, decide_eq_true_eq]
  rw [Fin.le_def]
  simp only
  apply min_le_min (le_refl _)
  apply Nat.div_le_div_left
  · rw [List.filter_append, List.length_append]; omega
  · omega

/-- Candidates `x`, with their unconditioned values. -/
def exC (x : ℕ) : Cand ℕ Unit (Fin 1001) := (x, (), (), exP.cond [] x ())

/-- Seven candidates for three slots (one of them null, one repeated). -/
def exOffered : List (Cand ℕ Unit (Fin 1001)) := [exC 0, exC 1, exC 4, exC 2, exC 6, exC 3, exC 1]

/-- The hypotheses of the theorems hold for the example; values and ranking of the pool. -/
example : (∀ c ∈ exOffered, c.2.2.2 = exP.cond [] c.1 c.2.1) ∧ (∀ c ∈ exOffered, c.2.2.2 ≠ none ∧ c.2.2.2 ≠ some ⊤) ∧
    (∃ c ∈ exOffered, c.2.2.2 ≠ some ⊥) := by decide +kernel

example : ((addMany exP (Pool.init 0 () 0 3) exOffered).toOption.map fun p => p.slots.map fun t => (t.1.1, t.2)) =
    some [(6, some 300), (0, some 100), (2, some 80)] := by decide +kernel

example : (bulkNew exP 0 () 0 3 exOffered).slots.map (fun t => (t.1.1, t.2)) =
    [(6, some 300), (0, some 100), (2, some 80)] := by decide +kernel

/-- A pool that is not filled: only two candidates above `-inf`. -/
example : ((addMany exP (Pool.init 0 () 0 3) [exC 4, exC 1, exC 0]).toOption.map fun p => (p.occupied.map (·.1), p.result 3)) =
    some ([0, 1], ([0, 1], [(), ()])) := by decide +kernel

/-- C74 applied to the example. -/
example (p) (h : addMany exP (Pool.init 0 () 0 3) exOffered = .ok p) :
    KBRanked exP.cond (p.slots.filter fun t => decide (t.2 ≠ some ⊥)) :=
  C74_single_is_ranking exP_nan exSort_sorts exP_shrinks (by omega) exOffered (by decide +kernel) p h

/-- C28 applied to the example: three processes, one of them with nothing to rank. -/
example : ∃ p, rankAndMerge exP 0 () 0 2 [[exC 0, exC 1], [], [exC 4, exC 6, exC 2]] = .ok p ∧
    p.occupied.map (·.1) = [6, 0] := by
  refine ⟨_, rfl, ?_⟩
  decide +kernel

example := C28_merge (size := 2) (x0 := 0) (y0 := ()) (a0 := 0) exP_nan exP_inf exSort_sorts (by omega)
  [[exC 0, exC 1], [], [exC 4, exC 6, exC 2]] (by decide +kernel) (by decide +kernel)

/-- C27 with a conditioned acquisition function that returns NaN for some positions. -/
example : addOne ⟨fun pre x _ => if x = 2 ∧ pre ≠ [] then none else exCond pre x (), exSort⟩
    (bulkNew exP 0 () 0 3 [exC 0, exC 1]) 2 () () (some 95) ≠ .error .fuel := C27_add_one_terminates _ _ _ _ _ _

/-- C26 applied to the example, with the pool and with the bulk method. -/
example : Greedy exP.cond [] exOffered 3 (nonEmpty (bulkNew exP 0 () 0 3 exOffered)) :=
  C26_bulk_greedy exP_nan exP_inf exP_shrinks 0 () 0 (by omega) exOffered (by decide +kernel)

/-- Values that decrease with the number of lies and are always different for different candidates. -/
def dCond (pre : List (ℕ × Unit)) (x : ℕ) (_ : Unit) : Option (Fin 1001) :=
  some ⟨1 + x % 100 + 100 * (4 - pre.length), by omega⟩

def dP : Cfg ℕ Unit (Fin 1001) := ⟨dCond, exSort⟩

/-- C26 (both methods agree) applied to an example. -/
example (p) (h : addMany dP (Pool.init 0 () 0 3) ([7, 30, 12].map fun x => (x, (), (), dCond [] x ())) = .ok p) :
    nonEmpty p = nonEmpty (bulkNew dP 0 () 0 3 ([30, 12, 7].map fun x => (x, (), (), dCond [] x ()))) := by
  refine C26_single_eq_bulk_partial (by intro pre x y; simp [dP, dCond]) exSort_sorts ?_ ?_ ?_ (by omega) _ _
    (by decide) (by simp) (by simp [dP]) ?_ p h
  · intro pre x y h
    simp only [dP, dCond, Option.some.injEq] at h
    have : 1 + x % 100 + 100 * (4 - pre.length) = 0 := congrArg Fin.val h
    omega
  · intro pre x y h
    simp only [dP, dCond, Option.some.injEq] at h
    have : 1 + x % 100 + 100 * (4 - pre.length) = 1000 := congrArg Fin.val h
    omega
  · intro pre q x y
    simp only [dP, dCond, leV, geV, decide_eq_true_eq, Fin.le_def, List.length_append, List.length_singleton]
    omega
  · intro pre c hc c' hc' heq
    simp only [dP, dCond, Option.some.injEq, Fin.mk.injEq] at heq
    simp only [List.map_cons, List.map_nil, List.mem_cons, List.not_mem_nil, or_false] at hc hc'
    rcases hc with rfl | rfl | rfl <;> rcases hc' with rfl | rfl | rfl <;> first | rfl | (exfalso; simp at heq)

/-! ## Counterexamples -/

/-- Values for the counterexample to C26: five candidates `0..4`. -/
def cxCond (pre : List (ℕ × Unit)) (x : ℕ) (_ : Unit) : Option (Fin 1001) :=
  let m (k : ℕ) (t : List (Fin 1001)) : Fin 1001 := if k ∈ pre.map Prod.fst then t.getD x 1 else 999
  some (min ([100, 90, 80, 95, 70].getD x 1) (min (m 0 [1, 50, 49, 60, 48]) (min (m 1 [1, 1, 10, 60, 20])
    (m 3 [1, 1, 49, 1, 2]))))

def cxP : Cfg ℕ Unit (Fin 1001) := ⟨cxCond, exSort⟩

theorem cxP_shrinks : Shrinks cxP.cond := by
  intro pre q x y
  simp only [cxP, cxCond, leV, geV, decide_eq_true_eq]
  have hm : ∀ (k : ℕ) (t : List (Fin 1001)), (∀ v ∈ t, v ≤ 999) →
      (if k ∈ (pre ++ [q]).map Prod.fst then t.getD x 1 else 999) ≤
        (if k ∈ pre.map Prod.fst then t.getD x 1 else (999 : Fin 1001)) := by
    intro k t ht
    have hx : t.getD x 1 ≤ 999 := by
      rw [List.getD_eq_getElem?_getD]
      cases h : t[x]? with
      | none => simp
      | some v => exact ht v (List.mem_of_getElem? h)
    by_cases h1 : k ∈ pre.map Prod.fst
    · have h2 : k ∈ (pre ++ [q]).map Prod.fst := by rw [List.map_append]; exact List.mem_append_left _ h1
      rw [if_pos h1, if_pos h2]
    · rw [if_neg h1]
      split
      · exact hx
      · exact le_refl _
  refine min_le_min (le_refl _) (min_le_min (hm _ _ (by decide +kernel)) (min_le_min (hm _ _ (by decide +kernel)) (hm _ _ (by decide +kernel))))

/-- **C26 is false in general for one-by-one insertion**: with more candidates than slots it may discard a candidate
that a greedy selection would keep.  Candidates 0..4, three slots, offered in the order 0, 1, 2, 4, 3: candidate 2 is
pushed out by 4 while 1 is in the pool, and is not there any more when 3 enters and makes 1 and 4 uninteresting.  The
values decrease with conditioning and are never null or NaN. -/
theorem C26_single_not_greedy_counterexample :
    let c := fun x => ((x, (), (), cxP.cond [] x ()) : Cand ℕ Unit (Fin 1001))
    ((addMany cxP (Pool.init 0 () 0 3) [c 0, c 1, c 2, c 4, c 3]).toOption.map fun p =>
        (nonEmpty p).map fun t => (t.1.1, t.2)) = some [(0, some 100), (3, some 60), (4, some 2)] ∧
      (nonEmpty (bulkNew cxP 0 () 0 3 [c 0, c 1, c 2, c 4, c 3])).map (fun t => (t.1.1, t.2)) =
        [(0, some 100), (3, some 60), (2, some 49)] ∧ Shrinks cxP.cond := by
  refine ⟨by decide +kernel, by decide +kernel, cxP_shrinks⟩

theorem cxP_nan : ∀ pre x y, cxP.cond pre x y ≠ none := by intro pre x y; simp [cxP, cxCond]

/-- Single insertion equals bulk insertion when everything fits: the candidates of the counterexample, five slots. -/
example :
    let c := fun x => ((x, (), (), cxP.cond [] x ()) : Cand ℕ Unit (Fin 1001))
    ((addMany cxP (Pool.init 0 () 0 5) [c 0, c 1, c 2, c 4, c 3]).toOption.map fun p =>
        (nonEmpty p).map fun t => (t.1.1, t.2)) =
      some ((nonEmpty (bulkNew cxP 0 () 0 5 [c 3, c 1, c 2, c 0, c 4])).map fun t => (t.1.1, t.2)) := by
  decide +kernel

/-- **C22 and C24 are false for a second call of `add` with `method="bulk"`**: it overwrites slots from the top. -/
theorem C22_bulk_twice_counterexample :
    let p := bulkNew exP 0 () 0 3 [exC 0, exC 2, exC 6]
    let c := exC 5
    (p.slots.map fun t => (t.1.1, t.2)) = [(6, some 300), (0, some 100), (2, some 80)] ∧
      ((addBulk exP p [c.1] [c.2.1] [c.2.2.1] [c.2.2.2]).slots.map fun t => (t.1.1, t.2)) =
        [(5, some 55), (0, some 100), (2, some 80)] := by
  refine ⟨by decide +kernel, by decide +kernel⟩

/-- **C24, C25 are false for `method="bulk"` with an infinite acquisition value**: the pool is left empty. -/
theorem C24_bulk_infinite_counterexample :
    (bulkNew exP 0 () 0 3 [exC 0, (7, (), (), some ⊤), exC 2]).occupied = [] := by decide +kernel

/-- **C22 needs conditioning not to increase the values, for `method="bulk"`**. -/
theorem C22_bulk_increase_counterexample :
    ((bulkNew (⟨fun pre x _ => some (if pre = [] then 10 else 20), exSort⟩ : Cfg ℕ Unit (Fin 1001)) 0 () 0 2
      [(1, (), (), some 10), (2, (), (), some 10)]).slots.map Prod.snd) = [some 10, some 20] := by decide +kernel

/-! ## Each theorem applied to the example -/

theorem exOffered_ok : ∀ c ∈ exOffered, c.2.2.2 ≠ none ∧ c.2.2.2 ≠ some ⊤ := by decide +kernel

theorem exAdd : ∃ p, addMany exP (Pool.init 0 () 0 3) exOffered = .ok p :=
  C25_add_succeeds exP_nan exSort_sorts 0 () 0 (by omega) exOffered fun c hc => (exOffered_ok c hc).1

example : ∃ p, addMany exP (Pool.init 0 () 0 3) exOffered = .ok p ∧ (p.slots.map Prod.snd).Pairwise (fun c d => geV c d = true) ∧
    p.occupied.Subperm exOffered := by
  obtain ⟨p, h⟩ := exAdd
  exact ⟨p, h, C22_single_sorted exP_nan exSort_sorts (by omega) exOffered p h, C23_single_content exP_nan exSort_sorts (by omega) exOffered p h⟩

/-- The first of the pool is the best candidate, number 6. -/
example : ∃ p, addMany exP (Pool.init 0 () 0 3) exOffered = .ok p ∧ ∃ c ∈ exOffered, p.occupied.head? = some c ∧ leV (exC 6).2.2.2 c.2.2.2 = true := by
  obtain ⟨p, h⟩ := exAdd
  obtain ⟨c, hc, -, h2, h3⟩ := C24_single_top exP_nan exSort_sorts (by omega) exOffered p h ⟨exC 0, by simp [exOffered], by decide +kernel⟩
  exact ⟨p, h, c, hc, h2, h3 _ (by simp [exOffered])⟩

example : ∃ p, addMany exP (Pool.init 0 () 0 3) exOffered = .ok p ∧ p.slots.length = 3 ∧ p.result 2 = ((p.occupied.take 2).map (·.1), (p.occupied.take 2).map (·.2.1)) := by
  obtain ⟨p, h⟩ := exAdd
  obtain ⟨h1, -, -, h4, -⟩ := C25_single_shape exP_nan exSort_sorts (by omega) exOffered p h
  exact ⟨p, h, h1, h4 2 (by omega)⟩

example : (bulkNew exP 0 () 0 3 exOffered).occupied.Subperm exOffered := C23_bulk_content exP_nan exP_inf 0 () 0 (by omega) exOffered exOffered_ok

example : ∃ c ∈ exOffered, (bulkNew exP 0 () 0 3 exOffered).occupied.head? = some c ∧ leV (exC 6).2.2.2 c.2.2.2 = true := by
  obtain ⟨c, hc, -, h2, h3⟩ := C24_bulk_top exP_nan exP_inf 0 () 0 (size := 3) (by omega) exOffered exOffered_ok ⟨exC 0, by simp [exOffered], by decide +kernel⟩
  exact ⟨c, hc, h2, h3 _ (by simp [exOffered])⟩

example : (bulkNew exP 0 () 0 3 exOffered).slots.length = 3 ∧ (bulkNew exP 0 () 0 3 exOffered).occupied ≠ [] :=
  let h := C25_bulk_shape exP_nan exP_inf 0 () 0 (size := 3) (by omega) exOffered exOffered_ok
  ⟨h.1, h.2.2.2.2 ⟨exC 0, by simp [exOffered], by decide +kernel⟩⟩

example : ((bulkNew exP 0 () 0 3 exOffered).slots.map Prod.snd).Pairwise fun c d => geV c d = true :=
  C22_bulk_sorted exP_nan exP_inf exP_shrinks 0 () 0 (by omega) exOffered (by decide +kernel)

/-- Everything fits: the selection is greedy. -/
example (p) (h : addMany dP (Pool.init 0 () 0 4) ([7, 30, 12].map fun x => (x, (), (), dCond [] x ())) = .ok p) :
    Greedy dP.cond [] ([7, 30, 12].map fun x => (x, (), (), dCond [] x ())) 4 (nonEmpty p) := by
  refine C26_single_greedy_partial (by intro pre x y; simp [dP, dCond]) exSort_sorts ?_ ?_ (by omega) _ (by simp) (by simp [dP]) p h
  · intro pre x y h
    simp only [dP, dCond, Option.some.injEq] at h
    have : 1 + x % 100 + 100 * (4 - pre.length) = 0 := congrArg Fin.val h
    omega
  · intro pre q x y
    simp only [dP, dCond, leV, geV, decide_eq_true_eq, Fin.le_def, List.length_append, List.length_singleton]
    omega

example : (((List.range 3).map fun r => GPry.Mpi.stepSplit 3 r [10, 11, 12, 13]).flatten).Perm [10, 11, 12, 13] := step_split_perm 3 (by omega) _

end GPry.Ranked
