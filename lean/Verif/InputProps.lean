import Verif.Input
import Verif.PriorProps
import Mathlib.Tactic.NormNum
import Mathlib.Tactic.Linarith

set_option linter.all false

/-!
# C127: bounds, reference bounds and covariance matrices given by the user
-/

namespace GPry.Input

open GPry GPry.Truth Matrix

/-- A list of pairs of numbers. -/
def rowsOf (l : List (Num × Num)) : Nest := .seq (l.map fun q => .seq [.num q.1, .num q.2])

theorem shapes_rows (f : List (List Num)) : shapes (f.map fun r => Nest.seq (r.map Nest.num)) = some (f.map fun r => [r.length]) := by
  have hn : ∀ r : List Num, shapes (r.map Nest.num) = some (r.map fun _ => []) := by
    intro r
    induction r with
    | nil => rfl
    | cons a r ih => rw [List.map_cons, shapes, Nest.shape, ih]; rfl
  have hr : ∀ r : List Num, (Nest.seq (r.map Nest.num)).shape = some [r.length] := by
    intro r
    rw [Nest.shape, hn]
    cases r with
    | nil => rfl
    | cons a r => simp
  induction f with
  | nil => rfl
  | cons r f ih => rw [List.map_cons, shapes, hr, ih]; rfl

theorem flats_rows (l : List (Num × Num)) : flats (l.map fun q => Nest.seq [.num q.1, .num q.2]) = l.flatMap fun q => [q.1, q.2] := by
  induction l with
  | nil => rfl
  | cons q l ih =>
    rw [List.map_cons, flats, ih, List.flatMap_cons]
    simp [Nest.flat, flats]

theorem pairs_flat (l : List (Num × Num)) : pairs (l.flatMap fun q => [q.1, q.2]) = l.map fun q => (q.1.val, q.2.val) := by
  induction l with
  | nil => rfl
  | cons q l ih => rw [List.flatMap_cons]; simp [pairs, ih]

/-- **C127** (bounds): a list of rows of numbers is accepted if and only if there are rows and all of them have two numbers, the lower and the upper
bound of each parameter; otherwise `TypeError` is raised. -/
theorem C127_rows (f : List (List Num)) :
    (∀ l : List (Num × Num), l ≠ [] → f = l.map (fun q => [q.1, q.2]) →
      ∃ a, checkBounds (.seq (f.map fun r => .seq (r.map .num))) = .ok a ∧ a.shape = [l.length, 2] ∧ pairs a.elems = l.map fun q => (q.1.val, q.2.val)) ∧
    ((f = [] ∨ ∃ r ∈ f, r.length ≠ 2) → checkBounds (.seq (f.map fun r => .seq (r.map .num))) = .error .typeError) := by
  constructor
  · rintro l hl rfl
    have hs : (Nest.seq ((l.map fun q => [q.1, q.2]).map fun r => .seq (r.map .num))).shape = some [l.length, 2] := by
      rw [Nest.shape, shapes_rows]
      cases l with
      | nil => exact absurd rfl hl
      | cons q l => simp
    refine ⟨⟨[l.length, 2], l.flatMap fun q => [q.1, q.2]⟩, ?_, rfl, pairs_flat l⟩
    rw [checkBounds, hs]
    simp only [atleast2d]
    rw [Nest.flat, List.map_map]
    exact congrArg (fun e => Except.ok (ε := Err) (Arr.mk [l.length, 2] e)) (flats_rows l)
  · intro h
    rw [checkBounds, Nest.shape, shapes_rows]
    cases f with
    | nil => rfl
    | cons r f =>
      rw [List.map_cons]
      dsimp only
      by_cases hr : r.length = 2
      · obtain ⟨r', hr', hne⟩ : ∃ r' ∈ r :: f, r'.length ≠ 2 := by
          rcases h with h | h
          · exact absurd h (List.cons_ne_nil _ _)
          · exact h
        rw [if_neg]
        intro hall
        rw [List.all_eq_true] at hall
        rcases List.mem_cons.1 hr' with rfl | hm
        · exact hne hr
        · have := hall [r'.length] (List.mem_map_of_mem hm)
          simp at this
          omega
      · split_ifs with hall
        · simp only [atleast2d]
          match hk : r.length with
          | 0 => rfl
          | 1 => rfl
          | 2 => exact absurd hk hr
          | k + 3 => rfl
        · rfl

/-- **C127** (bounds, one parameter): two numbers are the bounds of one parameter; a single number is refused. -/
theorem C127_one (a b : Num) :
    (∃ r, checkBounds (.seq [.num a, .num b]) = .ok r ∧ r.shape = [1, 2] ∧ pairs r.elems = [(a.val, b.val)]) ∧
    checkBounds (.num a) = .error .typeError := by
  refine ⟨⟨⟨[1, 2], [a, b]⟩, ?_, rfl, rfl⟩, rfl⟩
  simp [checkBounds, Nest.shape, shapes, atleast2d, Nest.flat, flats]

/-- **C127** is false of arrays with three dimensions ("raises TypeError otherwise"): shape (1, 2, 3) is accepted. -/
theorem C127_three_counterexample (x : Num) :
    ∃ a, checkBounds (.seq [.seq [.seq [.num x, .num x, .num x], .seq [.num x, .num x, .num x]]]) = .ok a ∧ a.shape = [1, 2, 3] := by
  refine ⟨_, by simp [checkBounds, Nest.shape, shapes, atleast2d]; rfl, rfl⟩

theorem isInt_rows (l : List (Num × Num)) (hl : l ≠ []) :
    (Arr.mk [l.length, 2] (l.flatMap fun q => [q.1, q.2])).isInt = true ↔ ∀ q ∈ l, q.1.isInt = true ∧ q.2.isInt = true := by
  unfold Arr.isInt
  cases l with
  | nil => exact absurd rfl hl
  | cons q l => simp [List.flatMap_cons, and_assoc]

theorem check_rowsOf (l : List (Num × Num)) (hl : l ≠ []) :
    checkBounds (rowsOf l) = .ok ⟨[l.length, 2], l.flatMap fun q => [q.1, q.2]⟩ := by
  have e : rowsOf l = .seq ((l.map fun q => [q.1, q.2]).map fun r => .seq (r.map .num)) := by
    rw [rowsOf, List.map_map]; rfl
  have hs : (rowsOf l).shape = some [l.length, 2] := by
    rw [e, Nest.shape, shapes_rows]
    cases l with
    | nil => exact absurd rfl hl
    | cons q l => simp
  rw [checkBounds, hs]
  simp only [atleast2d]
  exact congrArg (fun e => Except.ok (ε := Err) (Arr.mk [l.length, 2] e)) (by rw [rowsOf, Nest.flat]; exact flats_rows l)

/-- The reference bounds that are documented: the given ones, and the prior bounds where `None` is given. -/
def documented (prior : List (ℝ × ℝ)) (ref : List (Option (ℝ × ℝ))) : List (ℝ × ℝ) := List.zipWith (fun v b => v.getD b) ref prior

/-- Reference bounds as a list of pairs or `None`. -/
def asRef (ref : List (Option (ℝ × ℝ))) : Option (List (Option (List ℝ))) := some (ref.map fun v => v.map fun q => [q.1, q.2])

theorem refBounds_eq (isInt : Bool) (prior : List (ℝ × ℝ)) (ref : List (Option (ℝ × ℝ))) (h : ref.length = prior.length) :
    refBounds isInt prior (asRef ref) = .ok (documented prior (ref.map fun v => v.map fun q => (store isInt q.1, store isInt q.2))) := by
  have hs : ∃ r, setRef prior (asRef ref) = .ok (ref.map fun v => v.map fun q => [q.1, q.2], r) := by
    unfold setRef asRef
    dsimp only
    rw [if_neg (by simp [h]), if_neg]
    · exact ⟨_, rfl⟩
    · rw [List.any_eq_true]
      rintro ⟨v, hv, hh⟩
      obtain ⟨w, _, rfl⟩ := List.mem_map.1 hv
      cases w <;> simp at hh
  obtain ⟨r, hs⟩ := hs
  unfold refBounds documented
  rw [hs]
  dsimp only
  congr 1
  rw [List.zipWith_map_left, List.zipWith_map_left]
  congr 1
  funext v b
  cases v <;> rfl

/-- **C127** (reference bounds): if some prior bound is given as a floating point number, `ref_sample` draws from the given reference bounds, and from the
prior bounds where there are none. -/
theorem C127_reference_float (l : List (Num × Num)) (hl : l ≠ []) (hf : ∃ q ∈ l, q.1.isInt = false ∨ q.2.isInt = false) (ref : List (Option (ℝ × ℝ)))
    (h : ref.length = l.length) :
    ∃ a, checkBounds (rowsOf l) = .ok a ∧ refBounds a.isInt (pairs a.elems) (asRef ref) = .ok (documented (l.map fun q => (q.1.val, q.2.val)) ref) := by
  refine ⟨_, check_rowsOf l hl, ?_⟩
  have hi : (Arr.mk [l.length, 2] (l.flatMap fun q => [q.1, q.2])).isInt = false := by
    rw [Bool.eq_false_iff]
    intro hi
    obtain ⟨q, hq, hh⟩ := hf
    have := (isInt_rows l hl).1 hi q hq
    rcases hh with hh | hh
    · rw [this.1] at hh; exact Bool.noConfusion hh
    · rw [this.2] at hh; exact Bool.noConfusion hh
  rw [hi, refBounds_eq _ _ _ (by dsimp only; rw [pairs_flat, List.length_map]; exact h)]
  dsimp only
  rw [pairs_flat]
  congr 2
  conv_rhs => rw [← List.map_id ref]
  refine List.map_congr_left fun v _ => ?_
  cases v <;> rfl

theorem trunc_eq_iff (x : ℝ) : ((trunc x : ℤ) : ℝ) = x ↔ ∃ z : ℤ, x = z := by
  constructor
  · intro h; exact ⟨_, h.symm⟩
  · rintro ⟨z, rfl⟩
    unfold trunc
    split_ifs <;> simp

/-- **C127** (reference bounds, `_partial`): if all the prior bounds are given as integers, the fractional parts of the reference bounds are lost, and the
reference bounds are the given ones if and only if all the given ones are whole numbers. -/
theorem C127_reference_partial (l : List (Num × Num)) (hl : l ≠ []) (hi : ∀ q ∈ l, q.1.isInt = true ∧ q.2.isInt = true) (ref : List (Option (ℝ × ℝ)))
    (h : ref.length = l.length) :
    ∃ a, checkBounds (rowsOf l) = .ok a ∧
      refBounds a.isInt (pairs a.elems) (asRef ref) =
        .ok (documented (l.map fun q => (q.1.val, q.2.val)) (ref.map fun v => v.map fun q => ((trunc q.1 : ℝ), (trunc q.2 : ℝ)))) ∧
      (refBounds a.isInt (pairs a.elems) (asRef ref) = .ok (documented (l.map fun q => (q.1.val, q.2.val)) ref) ↔
        ∀ x y, some (x, y) ∈ ref → (∃ z : ℤ, x = z) ∧ ∃ z : ℤ, y = z) := by
  refine ⟨_, check_rowsOf l hl, ?_⟩
  have hI : (Arr.mk [l.length, 2] (l.flatMap fun q => [q.1, q.2])).isInt = true := (isInt_rows l hl).2 hi
  have e := refBounds_eq true (pairs (l.flatMap fun q => [q.1, q.2])) ref (by rw [pairs_flat, List.length_map]; exact h)
  rw [hI]
  dsimp only
  rw [e, pairs_flat]
  have hst : ∀ x, store true x = (trunc x : ℝ) := fun x => rfl
  simp only [hst]
  refine ⟨trivial, ?_⟩
  have hgen : ∀ (ref : List (Option (ℝ × ℝ))) (p : List (ℝ × ℝ)), ref.length = p.length →
      (documented p (ref.map fun v => v.map fun q => ((trunc q.1 : ℝ), (trunc q.2 : ℝ))) = documented p ref ↔
        ∀ x y, some (x, y) ∈ ref → (∃ z : ℤ, x = z) ∧ ∃ z : ℤ, y = z) := by
    intro ref
    induction ref with
    | nil => intro p _; simp [documented]
    | cons v ref ih =>
      intro p hp
      cases p with
      | nil => simp at hp
      | cons b p =>
        have hih := ih p (by simpa using hp)
        simp only [documented] at hih ⊢
        rw [List.map_cons, List.zipWith_cons_cons, List.zipWith_cons_cons, List.cons.injEq, hih]
        cases v with
        | none => simp
        | some q =>
          obtain ⟨x, y⟩ := q
          simp only [Option.map_some, Option.getD_some, Prod.mk.injEq, trunc_eq_iff, List.mem_cons, Option.some.injEq]
          constructor
          · rintro ⟨h1, h2⟩ x' y' (⟨rfl, rfl⟩ | hm)
            · exact h1
            · exact h2 x' y' hm
          · intro h'
            exact ⟨h' x y (Or.inl ⟨rfl, rfl⟩), fun x' y' hm => h' x' y' (Or.inr hm)⟩
  have := hgen ref (l.map fun q => (q.1.val, q.2.val)) (by rw [List.length_map]; exact h)
  rw [← this]
  constructor
  · intro hh; injection hh
  · intro hh; rw [hh]

/-- **C127** is false of integer prior bounds: with bounds `[0, 1]` and any reference bounds strictly between, the reference sample is always 0, which is not within
the reference bounds. With bounds `[0.0, 1.0]` it is always within. -/
theorem C127_reference_counterexample (x y u : ℝ) (hx : 0 < x) (hxy : x ≤ y) (hy : y < 1) (hu : 0 ≤ u ∧ u < 1) :
    refSampleOf (rowsOf [(.int 0, .int 1)]) (asRef [some (x, y)]) [u] = .ok (some [0]) ∧
    ∃ v, refSampleOf (rowsOf [(.flt 0, .flt 1)]) (asRef [some (x, y)]) [u] = .ok (some [v]) ∧ x ≤ v ∧ v ≤ y := by
  have htr : ∀ z, 0 < z → z < 1 → trunc z = 0 := by
    intro z h0 h1
    unfold trunc
    rw [if_pos h0.le]
    exact Int.floor_eq_iff.2 ⟨by simpa using h0.le, by simpa using h1⟩
  constructor
  · unfold refSampleOf
    rw [check_rowsOf _ (List.cons_ne_nil _ _)]
    have hI : (Arr.mk [[((Num.int 0), (Num.int 1))].length, 2] ([((Num.int 0), (Num.int 1))].flatMap fun q => [q.1, q.2])).isInt = true := rfl
    dsimp only
    rw [hI, refBounds_eq _ _ _ (by simp [pairs])]
    simp only [documented, List.flatMap_cons, List.flatMap_nil, pairs, List.map_cons, List.map_nil, Option.map_some, store, if_true,
      htr x hx (hxy.trans_lt hy), htr y (hx.trans_le hxy) hy, List.append_nil, List.zipWith_cons_cons, List.zipWith_nil_left, Option.getD_some]
    simp [Prior.refSample, Prior.uniform, Prior.widths, Prior.width]
  · refine ⟨x + (y - x) * u, ?_, by nlinarith, by nlinarith⟩
    unfold refSampleOf
    rw [check_rowsOf _ (List.cons_ne_nil _ _)]
    have hI : (Arr.mk [[((Num.flt 0), (Num.flt 1))].length, 2] ([((Num.flt 0), (Num.flt 1))].flatMap fun q => [q.1, q.2])).isInt = false := rfl
    dsimp only
    rw [hI, refBounds_eq _ _ _ (by simp [pairs])]
    simp only [documented, List.flatMap_cons, List.flatMap_nil, pairs, List.map_cons, List.map_nil, Option.map_some, store, 
      List.append_nil, List.zipWith_cons_cons, List.zipWith_nil_left, Option.getD_some]
    simp [Prior.refSample, Prior.uniform, Prior.widths, Prior.width, not_lt.2 hxy]

/-! ## Covariance matrices -/

variable {n : ℕ}

theorem isClose_self (a : ℝ) : isClose a a := by
  unfold isClose
  rw [sub_self, abs_zero]
  positivity

theorem lowerSym_eq {C : Matrix (Fin n) (Fin n) ℝ} (h : C.IsSymm) : lowerSym C = C := by
  ext i j
  simp only [lowerSym, of_apply]
  split_ifs
  · rfl
  · exact h.apply i j

/-- **C127** (covariance matrices): a symmetric matrix is valid if and only if it is positive definite. -/
theorem C127_covmat (C : Matrix (Fin n) (Fin n) ℝ) (h : C.IsSymm) : isValidCovmat C ↔ C.PosDef := by
  unfold isValidCovmat
  constructor
  · intro hv
    have := (lowerSym_isHermitian C).posDef_iff_eigenvalues_pos.2 hv.2
    rwa [lowerSym_eq h] at this
  · intro hC
    refine ⟨fun i j => ?_, ?_⟩
    · rw [h.eq]; exact isClose_self _
    · refine (lowerSym_isHermitian C).posDef_iff_eigenvalues_pos.1 ?_
      rwa [lowerSym_eq h]

/-- **C127** (covariance matrices, `_partial`): any valid matrix agrees with a positive definite matrix in the lower triangle, and differs from it above by no more than
the tolerance. -/
theorem C127_covmat_partial (C : Matrix (Fin n) (Fin n) ℝ) :
    isValidCovmat C ↔ ∃ S : Matrix (Fin n) (Fin n) ℝ, S.PosDef ∧ (∀ i j, j ≤ i → C i j = S i j) ∧
      ∀ i j, |C j i - C i j| ≤ 1 / 10 ^ 8 + 1 / 10 ^ 5 * |C i j| := by
  unfold isValidCovmat
  rw [← (lowerSym_isHermitian C).posDef_iff_eigenvalues_pos]
  constructor
  · rintro ⟨hc, hp⟩
    refine ⟨_, hp, fun i j hij => ?_, hc⟩
    simp [lowerSym, hij]
  · rintro ⟨S, hS, hl, hc⟩
    refine ⟨hc, ?_⟩
    have : lowerSym C = S := by
      ext i j
      simp only [lowerSym, of_apply]
      split_ifs with hij
      · exact hl i j hij
      · rw [hl j i (le_of_not_ge hij)]
        have := hS.isHermitian.apply i j
        simpa using this
    rwa [this]

/-- **C127** is false of matrices that are not symmetric: for parameters of small scale the absolute tolerance hides any asymmetry. This matrix is called valid, although
it is not symmetric, and the quadratic form is negative for some vector. -/
theorem C127_covmat_counterexample :
    let C : Matrix (Fin 2) (Fin 2) ℝ := !![1 / 10 ^ 12, 5 / 10 ^ 9; 0, 1 / 10 ^ 12]
    isValidCovmat C ∧ ¬ C.IsSymm ∧ ∃ v : Fin 2 → ℝ, v ⬝ᵥ C *ᵥ v < 0 := by
  intro C
  refine ⟨?_, ?_, ![1, -1], ?_⟩
  · rw [C127_covmat_partial]
    refine ⟨diagonal fun _ => 1 / 10 ^ 12, posDef_diagonal_iff.2 fun i => by positivity, ?_, ?_⟩
    · intro i j h
      fin_cases i <;> fin_cases j <;> simp [C] at h ⊢
    · intro i j
      fin_cases i <;> fin_cases j <;> simp only [C] <;> norm_num
  · intro h
    have := h.apply 0 1
    simp [C] at this
    norm_num at this
  · simp [C, mulVec, dotProduct, Fin.sum_univ_two]
    norm_num

example : isValidCovmat (!![2, 1; 1, 2] : Matrix (Fin 2) (Fin 2) ℝ) ∧ ¬ isValidCovmat (!![1, 2; 2, 1] : Matrix (Fin 2) (Fin 2) ℝ) := by
  have h1 : (!![2, 1; 1, 2] : Matrix (Fin 2) (Fin 2) ℝ).IsSymm := by ext i j; fin_cases i <;> fin_cases j <;> rfl
  have h2 : (!![1, 2; 2, 1] : Matrix (Fin 2) (Fin 2) ℝ).IsSymm := by ext i j; fin_cases i <;> fin_cases j <;> rfl
  rw [C127_covmat _ h1, C127_covmat _ h2]
  constructor
  · refine PosDef.of_dotProduct_mulVec_pos ?_ ?_
    · ext i j; fin_cases i <;> fin_cases j <;> simp
    · intro v hv
      simp [mulVec, dotProduct, Fin.sum_univ_two]
      have : v 0 ≠ 0 ∨ v 1 ≠ 0 := by
        by_contra hh
        push Not at hh
        exact hv (by ext i; fin_cases i <;> simp [hh])
      rcases this with h | h
      · nlinarith [sq_nonneg (v 0 + v 1), mul_self_pos.2 h, sq_nonneg (v 1)]
      · nlinarith [sq_nonneg (v 0 + v 1), mul_self_pos.2 h, sq_nonneg (v 0)]
  · intro h
    have := h.dotProduct_mulVec_pos (x := ![1, -1]) (by intro hh; have := congrFun hh 0; simp at this)
    simp [mulVec, dotProduct, Fin.sum_univ_two] at this

example : ∃ a, checkBounds (rowsOf [(.int 0, .int 10), (.int (-3), .int 3)]) = .ok a ∧
    refBounds a.isInt (pairs a.elems) (asRef [some (5 / 2, 7 / 2), none]) = .ok [(2, 3), (-3, 3)] := by
  obtain ⟨a, h1, h2, _⟩ := C127_reference_partial [(.int 0, .int 10), (.int (-3), .int 3)] (List.cons_ne_nil _ _) (by simp [Num.isInt]) [some (5 / 2, 7 / 2), none] rfl
  refine ⟨a, h1, h2.trans ?_⟩
  have t1 : trunc (5 / 2) = 2 := by unfold trunc; rw [if_pos (by norm_num)]; exact Int.floor_eq_iff.2 ⟨by norm_num, by norm_num⟩
  have t2 : trunc (7 / 2) = 3 := by unfold trunc; rw [if_pos (by norm_num)]; exact Int.floor_eq_iff.2 ⟨by norm_num, by norm_num⟩
  simp [documented, t1, t2, Num.val]

example : (∃ a, checkBounds (.seq [.seq [.num (.int 0), .num (.int 10)]]) = .ok a ∧ a.shape = [1, 2]) ∧
    checkBounds (.seq [.seq [.num (.int 0), .num (.int 10)], .seq [.num (.int 0)]]) = .error .typeError := by
  constructor
  · obtain ⟨a, h, hs, -⟩ := (C127_rows [[.int 0, .int 10]]).1 [(.int 0, .int 10)] (by simp) rfl
    exact ⟨a, h, hs⟩
  · exact (C127_rows [[.int 0, .int 10], [.int 0]]).2 (.inr ⟨[.int 0], by simp, by simp⟩)

example : ∃ r, checkBounds (.seq [.num (.int 0), .num (.int 10)]) = .ok r ∧ r.shape = [1, 2] := by
  obtain ⟨r, h, hs, -⟩ := (C127_one (.int 0) (.int 10)).1
  exact ⟨r, h, hs⟩

/-- One bound is not an integer: the reference `[5/2, 7/2]` is kept as it is. -/
example : ∃ a, checkBounds (rowsOf [(.int 0, .int 10), (.flt (-3), .int 3)]) = .ok a ∧
    refBounds a.isInt (pairs a.elems) (asRef [some (5 / 2, 7 / 2), none]) = .ok [(5 / 2, 7 / 2), (-3, 3)] := by
  obtain ⟨a, h1, h2⟩ := C127_reference_float [(.int 0, .int 10), (.flt (-3), .int 3)] (by simp) ⟨(.flt (-3), .int 3), by simp, .inl rfl⟩ [some (5 / 2, 7 / 2), none] rfl
  exact ⟨a, h1, h2.trans (by simp [documented, Num.val])⟩

/-- Only the part below the diagonal is used, if the other part is close. -/
example : isValidCovmat (!![1, 1 / 10 ^ 9; 0, 1] : Matrix (Fin 2) (Fin 2) ℝ) := by
  rw [C127_covmat_partial]
  refine ⟨1, PosDef.one, fun i j hij => ?_, fun i j => ?_⟩
  · fin_cases i <;> fin_cases j <;> simp at hij ⊢
  · fin_cases i <;> fin_cases j <;> simp <;> norm_num [abs_of_pos]

end GPry.Input
