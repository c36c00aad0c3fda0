import Verif.KernelHypProps

set_option linter.all false

/-!
# Comparing hyperparameters (gpry/kernels.py:108-115 `Hyperparameter.__eq__`)

`and` returns its last value, here that of `max_length == max_length`: with arrays, an array, whose truth value `bool` asks for is an error unless it has
one element. Comparing arrays of different shapes, none of which has one row, raises ValueError (numpy from version 1.25 on).

Simplified: the type of values is always "numeric"; a string is not equal to an array of bounds.
-/

namespace GPry.KernelHyp

variable {K : Type*} [Field K] [DecidableEq K]

/-- `np.all(bounds == bounds)` -/
def bndEq : Bnd K → Bnd K → Except Err Bool
  | .fixed, .fixed => .ok true
  | .dynamic, .dynamic => .ok true
  | .rows l, .rows m =>
    if l.length = m.length then .ok (decide (l = m))
    else if l.length = 1 then .ok (m.all fun r => decide (l.head? = some r))
    else if m.length = 1 then .ok (l.all fun r => decide (m.head? = some r))
    else .error .valueError
  | _, _ => .ok false

/-- Truth value of an array of truth values. -/
def truth : List Bool → Except Err Bool
  | [b] => .ok b
  | _ => .error .valueError

/-- `bool(max_length == max_length)`; compared with `None`, every entry is False. -/
def maxLenEq : Option (List K) → Option (List K) → Except Err Bool
  | none, none => .ok true
  | some l, none => truth (l.map fun _ => false)
  | none, some m => truth (m.map fun _ => false)
  | some l, some m =>
    if l.length = m.length then truth (List.zipWith (fun a b => decide (a = b)) l m)
    else if l.length = 1 then truth (m.map fun b => decide (l.head? = some b))
    else if m.length = 1 then truth (l.map fun a => decide (m.head? = some a))
    else .error .valueError

/-- `bool(a == b)` -/
def hyperEq (a b : Hyper K) : Except Err Bool :=
  if a.name ≠ b.name then .ok false
  else match bndEq a.bounds b.bounds with
    | .error e => .error e
    | .ok false => .ok false
    | .ok true =>
      if a.nElem ≠ b.nElem then .ok false
      else if a.fixed ≠ b.fixed then .ok false
      else if a.dynamic ≠ b.dynamic then .ok false
      else maxLenEq a.maxLen b.maxLen

theorem bndEq_same (b : Bnd K) : bndEq b b = .ok true := by
  cases b <;> simp [bndEq]

theorem bndEq_eq {b c : Bnd K} (h : ∀ l m, b = .rows l → c = .rows m → l.length = m.length) : bndEq b c = .ok (decide (b = c)) := by
  cases b with
  | fixed => cases c <;> simp [bndEq]
  | dynamic => cases c <;> simp [bndEq]
  | rows l => cases c with
    | fixed => simp [bndEq]
    | dynamic => simp [bndEq]
    | rows m => simp [bndEq, h l m rfl rfl]

/-- At most one number. -/
def Single (m : Option (List K)) : Prop := ∀ l, m = some l → l.length = 1

/-- **C99** (partial: `max_length` with at most one entry, bounds with the same number of rows): hyperparameters are equal iff all of their attributes are. -/
theorem C99_eq_partial (a b : Hyper K) (ha : Single a.maxLen) (hb : Single b.maxLen)
    (hr : ∀ l m, a.bounds = .rows l → b.bounds = .rows m → l.length = m.length) : hyperEq a b = .ok (decide (a = b)) := by
  have hm : maxLenEq a.maxLen b.maxLen = .ok (decide (a.maxLen = b.maxLen)) := by
    rcases h1 : a.maxLen with _ | l <;> rcases h2 : b.maxLen with _ | m
    · rfl
    · obtain ⟨y, rfl⟩ := List.length_eq_one_iff.1 (hb m h2)
      rfl
    · obtain ⟨x, rfl⟩ := List.length_eq_one_iff.1 (ha l h1)
      rfl
    · obtain ⟨x, rfl⟩ := List.length_eq_one_iff.1 (ha l h1)
      obtain ⟨y, rfl⟩ := List.length_eq_one_iff.1 (hb m h2)
      simp [maxLenEq, truth]
  unfold hyperEq
  rw [bndEq_eq hr]
  obtain ⟨n1, b1, m1, e1, f1, d1⟩ := a
  obtain ⟨n2, b2, m2, e2, f2, d2⟩ := b
  dsimp only at *
  rw [hm]
  by_cases h1 : n1 = n2
  · by_cases h2 : b1 = b2
    · by_cases h3 : e1 = e2
      · by_cases h4 : f1 = f2
        · by_cases h5 : d1 = d2
          · simp [h1, h2, h3, h4, h5]
          · simp [h1, h2, h3, h4, h5]
        · simp [h1, h2, h3, h4]
      · simp [h1, h2, h3]
    · simp [h1, h2]
  · simp [h1]

/-- **C99** is false of comparing hyperparameters: one with a `max_length` of two or more entries ("dynamic" bounds with as many parameters) is not even
comparable with itself. -/
theorem C99_eq_counterexample (a : Hyper K) (l : List K) (h : a.maxLen = some l) (hl : 1 < l.length) : hyperEq a a = .error .valueError := by
  unfold hyperEq
  rw [bndEq_same, h]
  match l, hl with
  | x :: y :: l, _ => simp [maxLenEq, truth]

/-- **C99**: hyperparameters of length scales with "dynamic" bounds: comparable iff the prior has one dimension. -/
theorem C99_eq_dynamic (v : Val K) (p : List (K × K)) (k : Kern K) (h : mkLen v .dynamic (some p) = .ok k) (a : Hyper K)
    (ha : ∃ m, k = .len v .dynamic m ∧ mkHyper nLen .dynamic m v.nElem = .ok a) :
    (p.length = 1 → hyperEq a a = .ok true) ∧ (1 < p.length → hyperEq a a = .error .valueError) := by
  obtain ⟨m, rfl, h2⟩ := ha
  simp only [mkLen, Except.ok.injEq, Kern.len.injEq, true_and] at h
  simp only [mkHyper, Except.ok.injEq] at h2
  subst h2
  subst h
  constructor
  · intro h1
    rw [C99_eq_partial _ _ (by intro l hl; cases hl; simpa using h1) (by intro l hl; cases hl; simpa using h1) (by intro l m h1 h2; cases h1)]
    simp
  · intro h1
    exact C99_eq_counterexample _ _ rfl (by simpa using h1)

/-! ## Examples -/

example : hyperEq (⟨nLen, .dynamic, some [2], 1, false, true⟩ : Hyper ℚ) ⟨nLen, .dynamic, some [3], 1, false, true⟩ = .ok false := by
  rw [C99_eq_partial _ _ (by intro l hl; cases hl; rfl) (by intro l hl; cases hl; rfl) (by intro l m h1 h2; cases h1)]
  decide +kernel

example : hyperEq (⟨nLen, .dynamic, some [2, 5], 2, false, true⟩ : Hyper ℚ) ⟨nLen, .dynamic, some [2, 5], 2, false, true⟩ = .error .valueError :=
  C99_eq_counterexample _ [2, 5] rfl (by decide)

example : hyperEq (⟨nLen, .dynamic, some [1, 4], 2, false, true⟩ : Hyper ℚ) ⟨nLen, .dynamic, some [1, 4], 2, false, true⟩ = .error .valueError :=
  (C99_eq_dynamic (.vec [1, 2]) [((0 : ℚ), 1), (0, 4)] (.len (.vec [1, 2]) .dynamic (some [1, 4])) (by simp [mkLen])
    ⟨nLen, .dynamic, some [1, 4], 2, false, true⟩ ⟨_, rfl, rfl⟩).2 (by decide)

/-- Different numbers of rows: an exception instead of "different". -/
example : hyperEq (⟨nLen, .rows [(1, 2), (1, 2)], none, 2, false, false⟩ : Hyper ℚ) ⟨nLen, .rows [(1, 2), (1, 2), (1, 2)], none, 3, false, false⟩ =
    .error .valueError := by decide +kernel

end GPry.KernelHyp
