import Verif.Mpi
import Mathlib.Algebra.BigOperators.Group.List.Basic
import Mathlib.Tactic.Ring
import Mathlib.Tactic.Linarith
import Mathlib.Data.List.Range

/-!
# Properties C01-C04 (MPI work splitting)
-/

set_option linter.all false

namespace GPry.Mpi

variable {α β : Type*}

/-! ## Helper lemmas -/

theorem ceilDiv_eq (n p : ℕ) (hp : 0 < p) : ceilDiv n p = n / p + if 0 < n % p then 1 else 0 := by
  unfold ceilDiv
  have h := Nat.div_add_mod n p
  have hm := Nat.mod_lt n hp
  set q := n / p
  set m := n % p
  split_ifs with h0
  · rw [Nat.div_eq_iff (by omega)]
    constructor
    · have : (q + 1) * p = p * q + p := by ring
      omega
    · have : (q + 1) * p = p * q + p := by ring
      omega
  · rw [Nat.div_eq_iff (by omega)]
    have : q * p = p * q := by ring
    constructor <;> simp only [Nat.add_zero] <;> omega

theorem lt_ceilDiv_iff (n p i : ℕ) (hp : 0 < p) : i < ceilDiv n p ↔ i * p < n := by
  unfold ceilDiv
  rw [Nat.lt_iff_add_one_le, Nat.le_div_iff_mul_le hp]
  have : (i + 1) * p = i * p + p := by ring
  omega

theorem strideLen_eq (n r p : ℕ) (hp : 0 < p) (hr : r < p) :
    strideLen n r p = n / p + if r < n % p then 1 else 0 := by
  unfold strideLen ceilDiv
  have h := Nat.div_add_mod n p
  have hm := Nat.mod_lt n hp
  set q := n / p
  set m := n % p
  rcases Nat.lt_or_ge n r with hnr | hnr
  · have hq : q = 0 := by
      rcases Nat.eq_zero_or_pos q with h0 | h0
      · exact h0
      · exfalso; nlinarith
    have hrm : ¬ r < m := by rw [hq] at h; omega
    rw [if_neg hrm, hq, Nat.div_eq_of_lt] <;> omega
  · split_ifs with h0
    · rw [Nat.div_eq_iff hp]
      have : (q + 1) * p = p * q + p := by ring
      constructor <;> omega
    · rw [Nat.div_eq_iff hp]
      have : q * p = p * q := by ring
      constructor <;> simp only [Nat.add_zero] <;> omega

theorem lt_strideLen_iff (n r p i : ℕ) (hp : 0 < p) : i < strideLen n r p ↔ r + i * p < n := by
  unfold strideLen
  rw [lt_ceilDiv_iff _ _ _ hp]
  omega

theorem slots_getD (n p k : ℕ) : (slots n p).getD k 0 = if k < n then 1 else 0 := by
  unfold slots
  rw [List.getD_eq_getElem?_getD, List.getElem?_append]
  simp only [List.length_replicate, List.getElem?_replicate]
  split_ifs <;> simp

theorem sum_indicator (m c : ℕ) :
    ((List.range m).map fun i => if i < c then 1 else 0).sum = min m c := by
  induction m with
  | zero => simp
  | succ m ih =>
    rw [List.range_succ, List.map_append, List.sum_append, ih]
    simp only [List.map_cons, List.map_nil, List.sum_cons, List.sum_nil, Nat.add_zero]
    split_ifs <;> omega

theorem splitNumber_entry (n p j : ℕ) (hp : 0 < p) (hj : j < p) :
    ((List.range (ceilDiv n p)).map fun i => (slots n p).getD (i * p + j) 0).sum
      = n / p + if j < n % p then 1 else 0 := by
  have h1 : ∀ i, (slots n p).getD (i * p + j) 0 = if i < strideLen n j p then 1 else 0 := by
    intro i
    rw [slots_getD]
    have := lt_strideLen_iff n j p i hp
    by_cases h : i * p + j < n
    · rw [if_pos h, if_pos (this.2 (by omega))]
    · rw [if_neg h, if_neg (fun h' => h (by have := this.1 h'; omega))]
  simp only [h1]
  rw [sum_indicator, strideLen_eq n j p hp hj, ceilDiv_eq n p hp]
  split_ifs <;> omega

theorem splitNumber_eq (n p : ℕ) (hp : 0 < p) :
    splitNumber n p = (List.range p).map fun j => n / p + if j < n % p then 1 else 0 := by
  unfold splitNumber
  apply List.map_congr_left
  intro j hj
  exact splitNumber_entry n p j hp (List.mem_range.1 hj)

theorem sum_const_add_indicator (p q m : ℕ) :
    ((List.range p).map fun j => q + if j < m then 1 else 0).sum = p * q + min p m := by
  induction p with
  | zero => simp
  | succ p ih =>
    rw [List.range_succ, List.map_append, List.sum_append, ih]
    simp only [List.map_cons, List.map_nil, List.sum_cons, List.sum_nil, Nat.add_zero]
    have : (p + 1) * q = p * q + q := by ring
    split_ifs <;> omega

/-! ## C01 -/

/-- **C01**: splitting `n` tasks over `p ≥ 1` processes yields `p` numbers that add up to `n`, differ
by at most one, and do not increase with the rank. -/
theorem C01_split_number_balanced (n p : ℕ) (hp : 0 < p) :
    (splitNumber n p).length = p ∧ (splitNumber n p).sum = n ∧
    (∀ a ∈ splitNumber n p, ∀ b ∈ splitNumber n p, a ≤ b + 1) ∧
    (splitNumber n p).Pairwise (· ≥ ·) := by
  rw [splitNumber_eq n p hp]
  have h := Nat.div_add_mod n p
  have hm := Nat.mod_lt n hp
  refine ⟨by simp, ?_, ?_, ?_⟩
  · rw [sum_const_add_indicator]; omega
  · intro a ha b hb
    simp only [List.mem_map, List.mem_range] at ha hb
    obtain ⟨i, _, rfl⟩ := ha
    obtain ⟨j, _, rfl⟩ := hb
    split_ifs <;> omega
  · rw [List.pairwise_map]
    refine List.Pairwise.imp ?_ List.pairwise_lt_range
    intro a b hab
    simp only [ge_iff_le]
    split_ifs <;> omega

/-- Documented example of the docstring (mpi.py:85) and a case with fewer tasks than processes. -/
example : splitNumber 5 3 = [2, 2, 1] ∧ splitNumber 2 4 = [1, 1, 0, 0] := by decide

/-! ## C02 -/

theorem getElem?_filterMap_range (f : ℕ → Option α) (m : ℕ) (h : ∀ i < m, (f i).isSome) (i : ℕ) :
    ((List.range m).filterMap f).length = m ∧
    ((List.range m).filterMap f)[i]? = if i < m then f i else none := by
  induction m with
  | zero => simp
  | succ m ih =>
    obtain ⟨hl, hi⟩ := ih (fun i hi => h i (by omega))
    obtain ⟨v, hv⟩ := Option.isSome_iff_exists.1 (h m (by omega))
    rw [List.range_succ, List.filterMap_append]
    refine ⟨by simp [hl, hv], ?_⟩
    rw [List.getElem?_append, hl, hi]
    by_cases h1 : i < m
    · simp [h1, Nat.lt_succ_of_lt h1]
    · rw [if_neg h1]
      by_cases h2 : i = m
      · subst h2; simp [hv]
      · have : i - m ≠ 0 := by omega
        have h3 : ¬ i < m + 1 := by omega
        simp [hv, h3, this]

theorem stride_facts (p r : ℕ) (hp : 0 < p) (xs : List α) (i : ℕ) :
    (stride p r xs).length = strideLen xs.length r p ∧
    (stride p r xs)[i]? = xs[r + i * p]? := by
  have h : ∀ i < strideLen xs.length r p, (xs[r + i * p]?).isSome := by
    intro i hi
    have := (lt_strideLen_iff _ _ _ _ hp).1 hi
    simp [this]
  obtain ⟨h1, h2⟩ := getElem?_filterMap_range (fun i => xs[r + i * p]?) _ h i
  refine ⟨h1, ?_⟩
  unfold stride
  rw [h2]
  split_ifs with h3
  · rfl
  · have := mt (lt_strideLen_iff xs.length r p i hp).2 h3
    rw [List.getElem?_eq_none (by omega)]

theorem sum_strideLen (n p : ℕ) (hp : 0 < p) :
    ((List.range p).map fun r => strideLen n r p).sum = n := by
  have : ((List.range p).map fun r => strideLen n r p)
      = (List.range p).map fun j => n / p + if j < n % p then 1 else 0 := by
    apply List.map_congr_left
    intro j hj
    exact strideLen_eq n j p hp (List.mem_range.1 hj)
  rw [this, sum_const_add_indicator]
  have h := Nat.div_add_mod n p
  have hm := Nat.mod_lt n hp
  omega

/-- Effect of one strided assignment when the lengths agree. -/
theorem assignStride_getElem? (p r : ℕ) (xs m : List α) (hp : 0 < p) (hr : r < p)
    (hl : m.length = xs.length) :
    ∃ m', assignStride p r (stride p r xs) m = some m' ∧ m'.length = xs.length ∧
      ∀ j, m'[j]? = if j % p = r then xs[j]? else m[j]? := by
  have hlen := (stride_facts p r hp xs 0).1
  refine ⟨_, by unfold assignStride; rw [if_pos (by rw [hlen, hl])], by simp [hl], ?_⟩
  intro j
  rw [List.getElem?_mapIdx]
  by_cases hj : j < xs.length
  · have hjm : j < m.length := by omega
    rw [List.getElem?_eq_getElem hjm, Option.map_some]
    have hiff : (r ≤ j ∧ (j - r) % p = 0) ↔ j % p = r := by
      constructor
      · rintro ⟨h1, h2⟩
        obtain ⟨k, hk⟩ := Nat.dvd_of_mod_eq_zero h2
        have : j = r + p * k := by omega
        rw [this, Nat.add_mul_mod_self_left, Nat.mod_eq_of_lt hr]
      · intro h
        have h3 := Nat.div_add_mod j p
        refine ⟨by have := Nat.mod_le j p; omega, ?_⟩
        have : j - r = p * (j / p) := by omega
        rw [this, Nat.mul_mod_right]
    by_cases h : j % p = r
    · rw [if_pos (hiff.2 h), if_pos h, List.getD_eq_getElem?_getD,
        (stride_facts p r hp xs _).2]
      have h3 := Nat.div_add_mod j p
      have h4 : (j - r) / p = j / p := by
        have : j - r = p * (j / p) := by omega
        rw [this, Nat.mul_div_cancel_left _ hp]
      have h5 : r + (j - r) / p * p = j := by rw [h4, Nat.mul_comm]; omega
      rw [h5, List.getElem?_eq_getElem hj]; simp
    · rw [if_neg (fun h' => h (hiff.1 h')), if_neg h]
  · have hjm : ¬ j < m.length := by omega
    rw [List.getElem?_eq_none (by omega : m.length ≤ j),
      List.getElem?_eq_none (by omega : xs.length ≤ j)]
    simp

theorem mergeLoop_spec (p : ℕ) (hp : 0 < p) (xs : List α) (k i : ℕ) (hk : i + k = p) (m : List α)
    (hl : m.length = xs.length) :
    ∃ m', mergeLoop p i ((List.range' i k).map fun r => stride p r xs) m = some m' ∧
      m'.length = xs.length ∧
      ∀ j, m'[j]? = if i ≤ j % p then xs[j]? else m[j]? := by
  induction k generalizing i m with
  | zero =>
    refine ⟨m, rfl, hl, fun j => ?_⟩
    have := Nat.mod_lt j hp
    rw [if_neg (by omega)]
  | succ k ih =>
    obtain ⟨m1, h1, hl1, hj1⟩ := assignStride_getElem? p i xs m hp (by omega) hl
    obtain ⟨m2, h2, hl2, hj2⟩ := ih (i + 1) (by omega) m1 hl1
    refine ⟨m2, ?_, hl2, fun j => ?_⟩
    · rw [List.range'_succ, List.map_cons, mergeLoop, h1, Option.bind_some, h2]
    · rw [hj2, hj1]
      split_ifs <;> first | rfl | omega

/-- **C02**: if each of the `p ≥ 1` ranks keeps its strided share of `xs`, the main process recovers
exactly `xs` by merging what it gathers. -/
theorem C02_step_split_merge (zero : α) (p : ℕ) (hp : 0 < p) (xs : List α) :
    mergeStepSplit zero p ((List.range p).map fun r => stepSplit p r xs) = some xs := by
  unfold mergeStepSplit stepSplit
  split_ifs with h1
  · have : p = 1 := by omega
    subst this
    rfl
  · have hsum : (((List.range p).map fun r => stride p r xs).map List.length).sum = xs.length := by
      rw [List.map_map]
      have : (List.length ∘ fun r => stride p r xs) = fun r => strideLen xs.length r p := by
        funext r; exact (stride_facts p r hp xs 0).1
      rw [this, sum_strideLen _ _ hp]
    obtain ⟨m', h, _, hj⟩ := mergeLoop_spec p hp xs p 0 (by omega)
      (List.replicate xs.length zero) (by simp)
    rw [hsum, List.range_eq_range', h]
    congr 1
    apply List.ext_getElem?
    intro j
    rw [hj]; simp

/-- Two processes, odd length: the merge has to interleave. -/
example : stepSplit 2 0 [10, 11, 12] = [10, 12] ∧ stepSplit 2 1 [10, 11, 12] = [11] ∧
    mergeStepSplit 0 2 [[10, 12], [11]] = some [10, 11, 12] := by decide

/-! ## C03 -/

theorem flatten_chunks (ns : List ℕ) (X : List α) :
    ∀ k, k ≤ ns.length →
      ((List.range k).map fun r => (X.drop (ns.take r).sum).take (ns.getD r 0)).flatten
        = X.take (ns.take k).sum := by
  intro k
  induction k with
  | zero => simp
  | succ k ih =>
    intro hk
    rw [List.range_succ, List.map_append, List.flatten_append, ih (by omega)]
    have hk' : k < ns.length := by omega
    have hget : ns.getD k 0 = ns[k] := by simp [List.getD_eq_getElem?_getD, hk']
    rw [List.take_succ_eq_append_getElem hk', List.sum_append]
    simp only [List.map_cons, List.map_nil, List.flatten_cons, List.flatten_nil, List.append_nil,
      List.sum_cons, List.sum_nil, Nat.add_zero]
    rw [hget, List.take_add]

theorem flatten_evalChunk (p : ℕ) (hp : 0 < p) (X : List α) :
    ((List.range p).map fun r => evalChunk p r X).flatten = X := by
  obtain ⟨hlen, hsum, -, -⟩ := C01_split_number_balanced X.length p hp
  have := flatten_chunks (splitNumber X.length p) X p (by omega)
  unfold evalChunk
  rw [this, List.take_of_length_le (by omega : (splitNumber X.length p).length ≤ p), hsum]
  simp

/-- **C03**: with any number of processes, every rank ends up with the values of the true posterior at
exactly the proposed points in the proposed order, and the calls to the true posterior, read by rank,
are exactly the proposed points, once each. -/
theorem C03_parallel_truth_eq_serial (f : α → β) (p : ℕ) (hp : 0 < p) (X : List α) :
    (evalTruthParallel f p X).length = p ∧
    (∀ out ∈ evalTruthParallel f p X, out.2 = X.map f) ∧
    ((evalTruthParallel f p X).map Prod.fst).flatten = X := by
  have hflat : (((List.range p).map fun r => evalChunk p r X).map fun xs => xs.map f).flatten
      = X.map f := by
    rw [← List.map_flatten, flatten_evalChunk p hp]
  refine ⟨by simp [evalTruthParallel], ?_, ?_⟩
  · intro out hout
    unfold evalTruthParallel at hout
    simp only [hflat] at hout
    obtain ⟨xs, _, rfl⟩ := List.mem_map.1 hout
    rfl
  · unfold evalTruthParallel
    simp only [List.map_map]
    exact flatten_evalChunk p hp X

/-- Three points on two processes: the first process evaluates two of them. -/
example : evalTruthParallel (fun x : ℕ => x * x) 2 [3, 4, 5]
    = [([3, 4], [9, 16, 25]), ([5], [9, 16, 25])] := by decide

/-! ## C04 -/

/-- The surrogate's array evaluation is point-wise. -/
def Pointwise (g : List α → List β) (h : α → β) : Prop := ∀ xs, g xs = xs.map h

theorem map_stride (h : α → β) (p r : ℕ) (xs : List α) :
    (stride p r xs).map h = stride p r (xs.map h) := by
  unfold stride
  rw [List.map_filterMap]
  simp [List.length_map]

theorem par_eval (zero : β) (p : ℕ) (hp : 0 < p) (g : List α → List β) (h : α → β)
    (hg : Pointwise g h) (X : List α) :
    mergeStepSplit zero p (((List.range p).map fun r => stepSplit p r X).map
      fun c => if 0 < c.length then g c else []) = some (X.map h) := by
  rw [← C02_step_split_merge zero p hp (X.map h), List.map_map]
  congr 1
  apply List.map_congr_left
  intro r _
  simp only [Function.comp]
  have : (if 0 < (stepSplit p r X).length then g (stepSplit p r X) else [])
      = (stepSplit p r X).map h := by
    split_ifs with h0
    · exact hg _
    · have : stepSplit p r X = [] := List.length_eq_zero_iff.1 (by omega)
      rw [this]; rfl
  rw [this]
  unfold stepSplit
  split_ifs
  · rfl
  · exact map_stride h p r X

/-- **C04** (first half, full): when nothing is precomputed, the main process gets the same arrays as
from serial point-wise evaluation, with any number of processes and also without MPI. -/
theorem C04_compute_y_parallel_eq_serial (zero : β) (env : Env) (hp : 0 < env.size)
    (gy gs : List α → List β) (hy hs : α → β) (hgy : Pointwise gy hy) (hgs : Pointwise gs hs)
    (X : List α) (sigma : Option (List β)) :
    computeYParallel zero env gy gs X none sigma true = .ok (some (X.map hy), some (X.map hs)) ∧
    computeYParallel zero env gy gs X none sigma false = .ok (some (X.map hy), none) := by
  constructor <;>
  simp only [computeYParallel, par_eval zero env.size hp gy hy hgy X,
    par_eval zero env.size hp gs hs hgs X]

/-- **C04**: without MPI, the values are those of a single call of the surrogate with all the points, whatever it computes. -/
theorem C04_one_process (zero : β) (gy gs : List α → List β) (X : List α) (hX : X ≠ []) (sigma : Option (List β)) :
    computeYParallel zero .noMpi gy gs X none sigma true = .ok (some (gy X), some (gs X)) := by
  have h1 : stepSplit 1 0 X = X := by simp [stepSplit]
  have h2 : 0 < X.length := List.length_pos_iff.2 hX
  simp [computeYParallel, Env.size, h1, h2, mergeStepSplit, List.range_succ]

/-- **C04** (second half, partial): precomputed values are handed back unchanged, and a missing
`sigma_y` is computed for all points, *if MPI is available*. What is missing is the MPI-less
environment, where the claim is false: see `C04_no_mpi_crash`. -/
theorem C04_given_y_kept_partial (zero : β) (p : ℕ) (hp : 0 < p)
    (gy gs : List α → List β) (hs : α → β) (hgs : Pointwise gs hs)
    (X : List α) (y : List β) (s : List β) (e : Bool) :
    computeYParallel zero (.mpi p) gy gs X (some y) (some s) e = .ok (some y, some s) ∧
    computeYParallel zero (.mpi p) gy gs X (some y) none true = .ok (some y, some (X.map hs)) := by
  constructor
  · cases e <;> rfl
  · have h2 := par_eval zero (Env.mpi p).size hp gs hs hgs X
    simp only [computeYParallel, h2]

/-- **C04, negation**: without `mpi4py`, passing a precomputed `y` always raises (mpi.py:207), so the
property as stated is false of the code. -/
theorem C04_no_mpi_crash (zero : β) (gy gs : List α → List β) (X : List α) (y : List β)
    (s : Option (List β)) (e : Bool) :
    computeYParallel zero .noMpi gy gs X (some y) s e = .error .attributeError := by
  rfl

example : computeYParallel 0 (.mpi 2) (List.map (· + 1)) (List.map (· * 2)) [1, 2, 3] none none true
    = .ok (some [2, 3, 4], some [2, 4, 6]) := by rfl

/-- Values that depend on the other points of the call. -/
example : computeYParallel 0 .noMpi (fun l => l.map (· + l.length)) (List.map (· * 2)) [1, 2, 3] none none true = .ok (some [4, 5, 6], some [2, 4, 6]) :=
  C04_one_process 0 _ _ _ (by simp) none

example : computeYParallel 0 (.mpi 2) (List.map (· + 1)) (List.map (· * 2)) [1, 2, 3] none none true = .ok (some [2, 3, 4], some [2, 4, 6]) :=
  (C04_compute_y_parallel_eq_serial 0 (.mpi 2) (by decide) (List.map (· + 1)) (List.map (· * 2)) (· + 1) (· * 2) (fun _ => rfl) (fun _ => rfl) [1, 2, 3] none).1

example : computeYParallel 0 (.mpi 2) (List.map (· + 1)) (List.map (· * 2)) [1, 2, 3] (some [7, 8, 9]) none true = .ok (some [7, 8, 9], some [2, 4, 6]) :=
  (C04_given_y_kept_partial 0 2 (by decide) (List.map (· + 1)) (List.map (· * 2)) (· * 2) (fun _ => rfl) [1, 2, 3] [7, 8, 9] [0, 0, 0] true).2

end GPry.Mpi
