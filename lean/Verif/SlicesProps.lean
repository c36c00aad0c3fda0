import Verif.Slices
import Verif.CobayaProps
import Mathlib.Algebra.Order.Field.Basic
import Mathlib.Data.Rat.Defs
import Mathlib.Data.List.TakeWhile
import Mathlib.Tactic.Linarith
import Mathlib.Tactic.FieldSimp

set_option linter.all false

/-!
# C115: slices, reference values and numbers in plots
-/

namespace GPry.Slices

open GPry.Cobaya (Dict Str get_put get_nil get_cons)

section slices

variable {K : Type*} [Field K] {Y : Type*}

/-- The points of a slice: all the parameters but the one with index `i` as in `x`. -/
def Points (x : List K) (b : K × K) (i n : ℕ) : List (List K) :=
  (List.range n).map fun k : ℕ => x.set i (b.1 + (k : K) * ((b.2 - b.1) / ((n : K) - 1)))

/-- The values to be plotted: NaN where the function raised. -/
def Value (o : Out Y) : Option Y :=
  match o with
  | .val y => some y
  | _ => none

theorem pyPos_nat (len i : ℕ) : pyPos len (i : ℤ) = if i < len then some i else none := by
  unfold pyPos
  rw [if_pos (Int.natCast_nonneg i)]
  by_cases h : i < len
  · rw [if_pos h, if_pos (by exact_mod_cast h)]; rfl
  · rw [if_neg h, if_neg (by exact_mod_cast h)]

theorem evalRow_iff (f : List K → Out Y) (rows : List (List K)) (ys : List (Option Y)) :
    evalRow f rows = .ok ys ↔ (∀ r ∈ rows, f r ≠ .typeError) ∧ ys = rows.map fun r => Value (f r) := by
  induction rows generalizing ys with
  | nil => simp [evalRow, eq_comm]
  | cons r rs ih =>
    rw [evalRow]
    cases hf : f r with
    | typeError =>
      refine ⟨fun h => (by cases h), fun h => absurd hf (h.1 r (List.mem_cons_self))⟩
    | val y =>
      have key : (evalRow f rs = .ok (rs.map fun r => Value (f r)) ∧ ∀ r ∈ rs, f r ≠ .typeError) ∨ (∃ e, evalRow f rs = .error e) ∧ ¬ ∀ r ∈ rs, f r ≠ .typeError := by
        by_cases h : ∀ r ∈ rs, f r ≠ .typeError
        · exact Or.inl ⟨(ih _).2 ⟨h, rfl⟩, h⟩
        · right
          refine ⟨?_, h⟩
          cases he : evalRow f rs with
          | ok ys => exact absurd ((ih ys).1 he).1 h
          | error e => exact ⟨e, rfl⟩
      rcases key with ⟨h1, h2⟩ | ⟨⟨e, h1⟩, h2⟩
      · rw [h1]
        simp only [Except.ok.injEq, List.mem_cons, forall_eq_or_imp, hf, List.map_cons, Value]
        constructor
        · rintro rfl; exact ⟨⟨by simp, h2⟩, rfl⟩
        · rintro ⟨_, rfl⟩; rfl
      · rw [h1]
        refine ⟨fun h => (by cases h), fun h => absurd (fun r hr => h.1 r (List.mem_cons_of_mem _ hr)) h2⟩
    | other =>
      have key : (evalRow f rs = .ok (rs.map fun r => Value (f r)) ∧ ∀ r ∈ rs, f r ≠ .typeError) ∨ (∃ e, evalRow f rs = .error e) ∧ ¬ ∀ r ∈ rs, f r ≠ .typeError := by
        by_cases h : ∀ r ∈ rs, f r ≠ .typeError
        · exact Or.inl ⟨(ih _).2 ⟨h, rfl⟩, h⟩
        · right
          refine ⟨?_, h⟩
          cases he : evalRow f rs with
          | ok ys => exact absurd ((ih ys).1 he).1 h
          | error e => exact ⟨e, rfl⟩
      rcases key with ⟨h1, h2⟩ | ⟨⟨e, h1⟩, h2⟩
      · rw [h1]
        simp only [Except.ok.injEq, List.mem_cons, forall_eq_or_imp, hf, List.map_cons, Value]
        constructor
        · rintro rfl; exact ⟨⟨by simp, h2⟩, rfl⟩
        · rintro ⟨_, rfl⟩; rfl
      · rw [h1]
        refine ⟨fun h => (by cases h), fun h => absurd (fun r hr => h.1 r (List.mem_cons_of_mem _ hr)) h2⟩

theorem sliceRows_nat (x : List K) (i n : ℕ) (b : K × K) (hi : i < x.length) : sliceRows x i b n = .ok (Points x b i n) := by
  unfold sliceRows
  rw [pyPos_nat, if_pos hi]
  simp [linspace, Points]

theorem loop_iff (f : List K → Out Y) (x : List K) (bounds : List (K × K)) (n : ℕ) (hb : x.length ≤ bounds.length) (is : List ℕ)
    (hi : ∀ i ∈ is, i < x.length) (q : List (List (List K)) × List (List (Option Y))) :
    loop f x bounds n (is.map fun i : ℕ => (i : ℤ)) = .ok q ↔
      (∀ i ∈ is, ∀ r ∈ Points x (bounds.getD i (0, 0)) i n, f r ≠ .typeError) ∧
      q = (is.map fun i => Points x (bounds.getD i (0, 0)) i n,
        is.map fun i => (Points x (bounds.getD i (0, 0)) i n).map fun r => Value (f r)) := by
  induction is generalizing q with
  | nil => simp [loop, eq_comm]
  | cons i is ih =>
    have h0 := hi i (List.mem_cons_self)
    have h1 : i < bounds.length := lt_of_lt_of_le h0 hb
    have hget : bounds[i]? = some (bounds.getD i (0, 0)) := by
      rw [List.getD_eq_getElem?_getD, List.getElem?_eq_getElem h1]; rfl
    have ih' := ih fun j hj => hi j (List.mem_cons_of_mem _ hj)
    rw [List.map_cons, loop, pyPos_nat, if_pos h1]
    dsimp only
    rw [hget]
    dsimp only
    rw [sliceRows_nat x i n _ h0]
    dsimp only
    cases he : evalRow f (Points x (bounds.getD i (0, 0)) i n) with
    | error e =>
      refine ⟨fun h => (by cases h), fun h => ?_⟩
      have := (evalRow_iff f _ _).2 ⟨h.1 i (List.mem_cons_self), rfl⟩
      rw [he] at this
      cases this
    | ok ys =>
      obtain ⟨e1, e2⟩ := (evalRow_iff f _ _).1 he
      dsimp only
      cases hl : loop f x bounds n (is.map fun i : ℕ => (i : ℤ)) with
      | error e =>
        refine ⟨fun h => (by cases h), fun h => ?_⟩
        have := (ih' _).2 ⟨fun j hj => h.1 j (List.mem_cons_of_mem _ hj), rfl⟩
        rw [hl] at this
        cases this
      | ok q' =>
        obtain ⟨e3, e4⟩ := (ih' q').1 hl
        subst e2
        subst e4
        simp only [Except.ok.injEq, List.mem_cons, forall_eq_or_imp, List.map_cons]
        constructor
        · rintro rfl; exact ⟨⟨e1, e3⟩, rfl⟩
        · rintro ⟨_, rfl⟩; rfl

theorem names_nat (ps : List String) (is : List ℕ) (hi : ∀ i ∈ is, i < ps.length) :
    names ps (is.map fun i : ℕ => (i : ℤ)) = .ok (is.map fun i => ps.getD i "") := by
  induction is with
  | nil => rfl
  | cons i is ih =>
    have h0 := hi i (List.mem_cons_self)
    have hget : ps[i]? = some (ps.getD i "") := by
      rw [List.getD_eq_getElem?_getD, List.getElem?_eq_getElem h0]; rfl
    rw [List.map_cons, names, pyPos_nat, if_pos h0]
    dsimp only
    rw [hget, ih fun j hj => hi j (List.mem_cons_of_mem _ hj)]
    rfl

/-- **C115** (slices). With the fiducial point given as a list and indices that are not negative, `prepare_slices_func` succeeds if and only if there is at
least one parameter, the indices are less than the dimension, there are bounds for all the parameters, there are two points per slice at least, and the function
raises `TypeError` at none of the points; and then the slices are those of the indices in order, with `n` points equally
spaced in that parameter and the rest as in the fiducial point, and the values are those of the function there (NaN where it raised something else). -/
theorem C115_slices (f : List K → Out Y) (x : List K) (bounds : List (K × K)) (is : List ℕ) (n : ℤ) (s : Slices K Y) :
    prepareList f x bounds (some (is.map fun i : ℕ => (i : ℤ))) n = .ok s ↔
      (x ≠ [] ∧ (∀ i ∈ is, i < x.length) ∧ x.length ≤ bounds.length ∧ 2 ≤ n ∧
        ∀ i ∈ is, ∀ r ∈ Points x (bounds.getD i (0, 0)) i n.toNat, f r ≠ .typeError) ∧
      s.indices = is.map (fun i : ℕ => (i : ℤ)) ∧ s.params = is.map (fun i => "x_" ++ Nat.repr (i + 1)) ∧
      s.Xs = is.map (fun i => Points x (bounds.getD i (0, 0)) i n.toNat) ∧
      s.ys = s.Xs.map fun rows => rows.map fun r => Value (f r) := by
  have hgen : (Truth.generic "x_" x.length).length = x.length := by simp [Truth.generic]
  have hnames : ∀ i, i < x.length → (Truth.generic "x_" x.length).getD i "" = "x_" ++ Nat.repr (i + 1) := by
    intro i hi
    rw [List.getD_eq_getElem?_getD, Truth.generic, List.getElem?_map, List.getElem?_range hi]
    rfl
  unfold prepareList
  dsimp only
  rw [Option.getD_some, hgen]
  by_cases h1 : x.length = 0
  · rw [if_pos h1]
    refine ⟨fun h => (by cases h), fun h => absurd (List.length_eq_zero_iff.1 h1) h.1.1⟩
  rw [if_neg h1]
  have h1' : x ≠ [] := fun h => h1 (by rw [h]; rfl)
  by_cases h2 : ∀ i ∈ is, i < x.length
  · rw [if_neg (by simpa using h2)]
    by_cases h3 : x.length ≤ bounds.length
    · rw [if_neg (not_lt.2 h3)]
      by_cases h4 : 2 ≤ n
      · rw [if_neg (not_lt.2 h4)]
        have hn := names_nat (Truth.generic "x_" x.length) is (by rw [hgen]; exact h2)
        have hn' : (is.map fun i => (Truth.generic "x_" x.length).getD i "") = is.map fun i => "x_" ++ Nat.repr (i + 1) :=
          List.map_congr_left fun i hi => hnames i (h2 i hi)
        rw [hn'] at hn
        cases hl : loop f x bounds n.toNat (is.map fun i : ℕ => (i : ℤ)) with
        | error e =>
          refine ⟨fun h => (by cases h), fun h => ?_⟩
          have := (loop_iff f x bounds n.toNat h3 is h2 _).2 ⟨h.1.2.2.2.2, rfl⟩
          rw [hl] at this
          cases this
        | ok q =>
          obtain ⟨e1, e2⟩ := (loop_iff f x bounds n.toNat h3 is h2 q).1 hl
          subst e2
          dsimp only
          rw [hn]
          dsimp only
          rw [Except.ok.injEq]
          constructor
          · rintro rfl
            refine ⟨⟨h1', h2, h3, h4, e1⟩, rfl, rfl, rfl, ?_⟩
            rw [List.map_map]; rfl
          · rintro ⟨_, r1, r2, r3, r4⟩
            rcases s with ⟨s1, s2, s3, s4⟩
            dsimp only at r1 r2 r3 r4
            rw [r1, r2, r4, r3, List.map_map]
            rfl
      · rw [if_pos (not_le.1 h4)]
        exact ⟨fun h => (by cases h), fun h => absurd h.1.2.2.2.1 h4⟩
    · rw [if_pos (not_le.1 h3)]
      exact ⟨fun h => (by cases h), fun h => absurd h.1.2.2.1 h3⟩
  · rw [if_pos (by simpa using h2)]
    exact ⟨fun h => (by cases h), fun h => absurd h.1.2.1 h2⟩

/-- **C115** (default): without indices, there is a slice for each parameter. -/
theorem C115_default (f : List K → Out Y) (x : List K) (bounds : List (K × K)) (n : ℤ) :
    prepareList f x bounds none n = prepareList f x bounds (some ((List.range x.length).map fun i : ℕ => (i : ℤ))) n := rfl

example : prepareList (K := ℚ) (fun r => Out.val r.sum) [1, 2] [(0, 4), (0, 10)] none 3 =
    prepareList (fun r => Out.val r.sum) [1, 2] [(0, 4), (0, 10)] (some [0, 1]) 3 := C115_default _ _ _ _

/-- **C115** (grid): the values of the parameter of a slice go from the lower to the upper bound, both included, in increasing order. -/
theorem C115_grid {K : Type*} [Field K] [LinearOrder K] [IsStrictOrderedRing K] (lo hi : K) (h : lo < hi) (n : ℕ) (hn : 2 ≤ n) :
    (linspace lo hi n).length = n ∧ (linspace lo hi n)[0]? = some lo ∧ (linspace lo hi n)[n - 1]? = some hi ∧
    (linspace lo hi n).Pairwise (· < ·) ∧ ∀ v ∈ linspace lo hi n, lo ≤ v ∧ v ≤ hi := by
  have hn1 : (0 : K) < (n : K) - 1 := by
    have : (2 : K) ≤ n := by exact_mod_cast hn
    linarith
  have hstep : 0 < (hi - lo) / ((n : K) - 1) := div_pos (sub_pos.2 h) hn1
  have hlast : lo + ((n - 1 : ℕ) : K) * ((hi - lo) / ((n : K) - 1)) = hi := by
    have : ((n - 1 : ℕ) : K) = (n : K) - 1 := by rw [Nat.cast_sub (by omega)]; simp
    rw [this, mul_div_cancel₀ _ hn1.ne']
    ring
  refine ⟨by simp [linspace], ?_, ?_, ?_, ?_⟩
  · rw [linspace, List.getElem?_map, List.getElem?_range (by omega)]
    simp
  · rw [linspace, List.getElem?_map, List.getElem?_range (by omega)]
    simp [hlast]
  · rw [linspace, List.pairwise_map]
    refine List.Pairwise.imp ?_ List.pairwise_lt_range
    intro a b hab
    have : (a : K) < b := by exact_mod_cast hab
    nlinarith
  · intro v hv
    rw [linspace, List.mem_map] at hv
    obtain ⟨k, hk, rfl⟩ := hv
    rw [List.mem_range] at hk
    have h1 : (k : K) ≤ ((n - 1 : ℕ) : K) := by exact_mod_cast (by omega : k ≤ n - 1)
    have h2 : (0 : K) ≤ k := Nat.cast_nonneg k
    refine ⟨by nlinarith, ?_⟩
    calc lo + (k : K) * ((hi - lo) / ((n : K) - 1)) ≤ lo + ((n - 1 : ℕ) : K) * ((hi - lo) / ((n : K) - 1)) := by nlinarith
      _ = hi := hlast

example : (linspace (0 : ℚ) 10 5).length = 5 ∧ (linspace (0 : ℚ) 10 5)[4]? = some 10 :=
  let h := C115_grid (0 : ℚ) 10 (by norm_num) 5 (by norm_num)
  ⟨h.1, h.2.2.1⟩

/-- **C115** is false of the documented form with a dictionary: whatever the values, the bounds and the indices, it raises. -/
theorem C115_dict_counterexample (x : Dict Str K) (hx : x ≠ []) (bounds : DBounds K) (indices : Option (List Str)) (n : ℤ) :
    ∃ e, (prepareDict x bounds indices n : Except Err (Slices K Y)) = .error e ∧
      (∀ m, bounds = .map m → indices = none → e = .keyError) := by
  cases x with
  | nil => exact absurd rfl hx
  | cons q x =>
    unfold prepareDict
    dsimp only [List.map_cons]
    cases indices with
    | none => cases bounds with
      | map m => exact ⟨_, rfl, fun _ _ _ => rfl⟩
      | seq l => exact ⟨_, rfl, fun m h => by cases h⟩
    | some is => cases is with
      | nil => cases bounds with
        | map m => exact ⟨_, rfl, fun _ _ _ => rfl⟩
        | seq l => exact ⟨_, rfl, fun m h => by cases h⟩
      | cons i is => exact ⟨_, rfl, fun _ _ h => by cases h⟩

/-- **C115** is false of negative indices: they pass the check. If there are more bounds than parameters, the last parameter is sliced between bounds that
are not its own. -/
theorem C115_negative_counterexample (f : List K → Out Y) (hf : ∀ r, f r ≠ .typeError) (x : List K) (hx : x ≠ []) (bounds : List (K × K)) (b : K × K)
    (hb : x.length ≤ bounds.length) (n : ℤ) (hn : 2 ≤ n) :
    ∃ s, prepareList f x (bounds ++ [b]) (some [-1]) n = .ok s ∧ s.Xs = [Points x b (x.length - 1) n.toNat] := by
  have hl : 0 < x.length := List.length_pos_iff.2 hx
  have hgen : (Truth.generic "x_" x.length).length = x.length := by simp [Truth.generic]
  have p1 : pyPos (bounds ++ [b]).length (-1) = some bounds.length := by
    unfold pyPos
    rw [if_neg (by decide), List.length_append, List.length_singleton, if_pos (by push_cast; omega)]
    congr 1
    push_cast
    omega
  have p2 : pyPos x.length (-1) = some (x.length - 1) := by
    unfold pyPos
    rw [if_neg (by decide), if_pos (by omega)]
    congr 1
    omega
  have hsl : sliceRows x (-1) b n.toNat = .ok (Points x b (x.length - 1) n.toNat) := by
    unfold sliceRows
    rw [p2]
    simp [linspace, Points]
  have hev := (evalRow_iff f (Points x b (x.length - 1) n.toNat) _).2 ⟨fun r _ => hf r, rfl⟩
  have hnm : ∃ s, names (Truth.generic "x_" x.length) [-1] = .ok s := by
    rw [names, hgen, p2]
    dsimp only
    have h0 : x.length - 1 < (Truth.generic "x_" x.length).length := by rw [hgen]; omega
    rw [List.getElem?_eq_getElem h0]
    exact ⟨_, rfl⟩
  obtain ⟨ps, hps⟩ := hnm
  refine ⟨⟨[-1], ps, [Points x b (x.length - 1) n.toNat], [(Points x b (x.length - 1) n.toNat).map fun r => Value (f r)]⟩, ?_, rfl⟩
  unfold prepareList
  dsimp only
  rw [Option.getD_some, hgen, if_neg (by omega), if_neg (by simp; omega), if_neg (by rw [List.length_append]; omega), if_neg (by omega)]
  have hloop : loop f x (bounds ++ [b]) n.toNat [-1] = .ok ([Points x b (x.length - 1) n.toNat], [(Points x b (x.length - 1) n.toNat).map fun r => Value (f r)]) := by
    rw [loop, p1]
    dsimp only
    rw [List.getElem?_append_right (le_refl _), Nat.sub_self]
    dsimp only [List.getElem?_cons_zero]
    rw [hsl]
    dsimp only
    rw [hev]
    rfl
  rw [hloop]
  dsimp only
  rw [hps]

/-- `f` raises nothing; two parameters, three points per slice. -/
example : prepareList (K := ℚ) (fun r => Out.val r.sum) [1, 2] [(0, 4), (0, 10)] (some [1]) 3 =
    .ok ⟨[1], ["x_2"], [[[1, 0], [1, 5], [1, 10]]], [[some 1, some 6, some 11]]⟩ := by
  rw [show ([1] : List ℤ) = [1].map (fun i : ℕ => (i : ℤ)) from rfl, C115_slices]
  refine ⟨⟨by simp, by simp, by simp, by decide, by intros; simp⟩, rfl, by decide +kernel, ?_, ?_⟩
  · decide +kernel
  · decide +kernel

end slices

/-! ## Reference values -/

section reference

variable {K : Type*}

/-- What the reference should be for a parameter, given what the user passed. -/
def Want : Option (Entry K) → Option (List (Option K))
  | none => some [none, none, none, none, none]
  | some (.num v) => some [none, none, some v, none, none]
  | some (.vals [v]) => some [none, none, v, none, none]
  | some (.vals l) => if l.length = 5 then some l else none

theorem want_again (e : Option (Entry K)) (l : List (Option K)) (h : Want e = some l) : Want (some (.vals l)) = some l ∧ l.length = 5 := by
  have five : ∀ l : List (Option K), l.length = 5 → Want (some (.vals l)) = some l := by
    intro l hl
    match l, hl with
    | [a, b, c, d, e], _ => rfl
  have hl : l.length = 5 := by
    unfold Want at h
    split at h
    · cases h; rfl
    · cases h; rfl
    · cases h; rfl
    · split at h
      · cases h; assumption
      · cases h
  exact ⟨five l hl, hl⟩

theorem refStep_spec (d : Dict Str (Entry K)) (p : Str) :
    (∀ l, Want (Cobaya.get d p) = some l → ∃ d', refStep d p = (d', none) ∧ Cobaya.get d' p = some (.vals l) ∧ ∀ q, q ≠ p → Cobaya.get d' q = Cobaya.get d q) ∧
    (Want (Cobaya.get d p) = none → refStep d p = (d, some .valueError)) := by
  unfold refStep
  cases hg : Cobaya.get d p with
  | none =>
    dsimp only
    rw [Option.isNone_none, if_pos rfl]
    have hput : Cobaya.get (Cobaya.put d (p, Entry.vals (List.replicate 5 none))) p = some (.vals (List.replicate 5 none)) := by
      rw [get_put, if_pos rfl]
    rw [hput]
    refine ⟨fun l h => ?_, fun h => by cases h⟩
    cases h
    refine ⟨_, rfl, hput, fun q hq => ?_⟩
    rw [get_put, if_neg hq.symm]
  | some e =>
    dsimp only
    rw [Option.isNone_some, if_neg Bool.false_ne_true, hg]
    cases e with
    | num v =>
      refine ⟨fun l h => ?_, fun h => by cases h⟩
      cases h
      refine ⟨_, rfl, by rw [get_put, if_pos rfl], fun q hq => ?_⟩
      rw [get_put, if_neg hq.symm]
    | vals l0 =>
      match l0 with
      | [v] =>
        refine ⟨fun l h => ?_, fun h => by cases h⟩
        cases h
        refine ⟨_, rfl, by rw [get_put, if_pos rfl], fun q hq => ?_⟩
        rw [get_put, if_neg hq.symm]
      | [] => exact ⟨fun l h => (by cases h), fun h => rfl⟩
      | a :: b :: l0 =>
        dsimp only [Want]
        by_cases h5 : (a :: b :: l0).length = 5
        · rw [if_pos h5, if_neg (not_not.2 h5)]
          refine ⟨fun l h => ?_, fun h => by cases h⟩
          cases h
          exact ⟨d, rfl, hg, fun _ _ => rfl⟩
        · rw [if_neg h5, if_pos h5]
          exact ⟨fun l h => (by cases h), fun _ => rfl⟩

theorem refLoop_spec (ps : List Str) : ∀ d : Dict Str (Entry K),
    ((∀ p ∈ ps, Want (Cobaya.get d p) ≠ none) → ∃ d', refLoop d ps = (d', none) ∧
      (∀ p ∈ ps, ∃ l, Want (Cobaya.get d p) = some l ∧ Cobaya.get d' p = some (.vals l)) ∧ ∀ q, q ∉ ps → Cobaya.get d' q = Cobaya.get d q) ∧
    ((∃ p ∈ ps, Want (Cobaya.get d p) = none) → ∃ d', refLoop d ps = (d', some .valueError)) := by
  induction ps with
  | nil =>
    intro d
    exact ⟨fun _ => ⟨d, rfl, fun p hp => (by cases hp), fun _ _ => rfl⟩, fun ⟨p, hp, _⟩ => (by cases hp)⟩
  | cons p ps ih =>
    intro d
    cases hw : Want (Cobaya.get d p) with
    | none =>
      refine ⟨fun h => absurd hw (h p (List.mem_cons_self)), fun _ => ⟨d, ?_⟩⟩
      rw [refLoop, (refStep_spec d p).2 hw]
    | some l =>
      obtain ⟨d1, h1, h2, h3⟩ := (refStep_spec d p).1 l hw
      have again := want_again _ _ hw
      -- what is wanted does not change
      have same : ∀ q, Want (Cobaya.get d1 q) = Want (Cobaya.get d q) := by
        intro q
        by_cases hq : q = p
        · rw [hq, h2, hw, again.1]
        · rw [h3 q hq]
      refine ⟨fun h => ?_, fun ⟨q, hq, hq'⟩ => ?_⟩
      · obtain ⟨d', e1, e2, e3⟩ := (ih d1).1 fun q hq => by rw [same]; exact h q (List.mem_cons_of_mem _ hq)
        refine ⟨d', by rw [refLoop, h1]; exact e1, fun q hq => ?_, fun q hq => ?_⟩
        · by_cases hm : q ∈ ps
          · obtain ⟨l', g1, g2⟩ := e2 q hm
            exact ⟨l', by rw [← same]; exact g1, g2⟩
          · rcases List.mem_cons.1 hq with rfl | hq
            · exact ⟨l, hw, by rw [e3 _ hm]; exact h2⟩
            · exact absurd hq hm
        · rw [List.mem_cons, not_or] at hq
          rw [e3 q hq.2, h3 q hq.1]
      · have : q ∈ ps := by
          rcases List.mem_cons.1 hq with rfl | hq
          · rw [hw] at hq'; cases hq'
          · exact hq
        obtain ⟨d', e⟩ := (ih d1).2 ⟨q, this, by rw [same]; exact hq'⟩
        exact ⟨d', by rw [refLoop, h1]; exact e⟩

/-- **C115** (reference): given a dictionary (and GetDist), the result has five numbers or `None`s for each parameter: those of the dictionary, or the
number in the middle if there is only one, or `None`s if the parameter is not in it; the rest is as in the dictionary. It raises
`ValueError` if and only if a parameter has another number of elements. -/
theorem C115_reference (params : List Str) (d : Dict Str (Entry K)) :
    ((∀ p ∈ params, Want (Cobaya.get d p) ≠ none) → ∃ d', (prepareRef true params (.map d)).1 = .ok (some d') ∧
      (∀ p ∈ params, ∃ l, l.length = 5 ∧ Want (Cobaya.get d p) = some l ∧ Cobaya.get d' p = some (.vals l)) ∧
      ∀ q, q ∉ params → Cobaya.get d' q = Cobaya.get d q) ∧
    ((∃ p ∈ params, Want (Cobaya.get d p) = none) → (prepareRef true params (.map d)).1 = .error .valueError) := by
  unfold prepareRef
  dsimp only
  refine ⟨fun h => ?_, fun h => ?_⟩
  · obtain ⟨d', e1, e2, e3⟩ := (refLoop_spec params d).1 h
    rw [e1]
    exact ⟨d', rfl, fun p hp => by obtain ⟨l, g1, g2⟩ := e2 p hp; exact ⟨l, (want_again _ _ g1).2, g1, g2⟩, e3⟩
  · obtain ⟨d', e⟩ := (refLoop_spec params d).2 h
    rw [e]

/-- One value for `a`, nothing for `b`. -/
example : ∃ d', (prepareRef true ["a".toList, "b".toList] (.map [("a".toList, Entry.num (1 : ℚ))])).1 = .ok (some d') ∧
    Cobaya.get d' "a".toList = some (.vals [none, none, some 1, none, none]) := by
  obtain ⟨d', h, H, -⟩ := (C115_reference ["a".toList, "b".toList] [("a".toList, Entry.num (1 : ℚ))]).1 (by decide +kernel)
  obtain ⟨l, -, h1, h2⟩ := H "a".toList (by simp)
  refine ⟨d', h, ?_⟩
  rw [h2]
  have : Want (Cobaya.get [("a".toList, Entry.num (1 : ℚ))] "a".toList) = some [none, none, some 1, none, none] := by decide +kernel
  rw [this] at h1
  cases h1; rfl

/-- Two values are not a reference. -/
example : (prepareRef true ["a".toList] (.map [("a".toList, Entry.vals [some (1 : ℚ), none])])).1 = .error .valueError :=
  (C115_reference _ _).2 ⟨"a".toList, by simp, by decide +kernel⟩

/-- **C115** (list): a list with one entry per (distinct) parameter is treated as the dictionary with these entries. -/
theorem C115_reference_list (params : List Str) (hp : params.Nodup) (l : List (Entry K)) :
    (prepareRef true params (.seq l)).1 = if l.length ≠ params.length then .error .valueError else (prepareRef true params (.map (params.zip l))).1 := by
  have hupd : ∀ (ps : List Str) (es : List (Entry K)) (d : Dict Str (Entry K)), ps.Nodup → (∀ p ∈ ps, p ∉ d.map Prod.fst) →
      Cobaya.update d (ps.zip es) = d ++ ps.zip es := by
    intro ps
    induction ps with
    | nil => intro es d _ _; simp [Cobaya.update]
    | cons p ps ih =>
      intro es d hnd hd
      cases es with
      | nil => simp [Cobaya.update]
      | cons e es =>
        rw [List.nodup_cons] at hnd
        rw [List.zip_cons_cons, Cobaya.update, List.foldl_cons]
        have hput : Cobaya.put d (p, e) = d ++ [(p, e)] := by
          rw [Cobaya.put, if_neg (hd p (List.mem_cons_self))]
        rw [hput]
        have := ih es (d ++ [(p, e)]) hnd.2 (by
          intro q hq hc
          rw [List.map_append, List.mem_append] at hc
          rcases hc with hc | hc
          · exact hd q (List.mem_cons_of_mem _ hq) hc
          · simp at hc
            exact hnd.1 (hc ▸ hq))
        rw [Cobaya.update] at this
        rw [this]
        simp
  unfold prepareRef
  dsimp only
  by_cases h : l.length ≠ params.length
  · rw [if_pos h, if_pos h]
  · rw [if_neg h, if_neg h]
    rw [hupd params l [] hp (by simp), List.nil_append]
    rcases refLoop (params.zip l) params with ⟨d', e⟩
    cases e <;> rfl

example : (prepareRef true ["a".toList, "b".toList] (.seq [Entry.num (1 : ℚ)])).1 = .error .valueError := by
  rw [C115_reference_list _ (by decide), if_pos (by decide)]

/-- **C115** (again): preparing a prepared reference changes nothing. -/
theorem C115_reference_again (params : List Str) (d d' : Dict Str (Entry K)) (h : (prepareRef true params (.map d)).1 = .ok (some d')) :
    (prepareRef true params (.map d')).1 = .ok (some d') := by
  have hw : ∀ p ∈ params, Want (Cobaya.get d p) ≠ none := by
    intro p hp hn
    rw [(C115_reference params d).2 ⟨p, hp, hn⟩] at h
    cases h
  obtain ⟨d1, e1, e2, _⟩ := (C115_reference params d).1 hw
  rw [e1] at h
  obtain rfl : d1 = d' := by cases h; rfl
  -- no step changes anything
  have hstep : ∀ p ∈ params, refStep d1 p = (d1, none) := by
    intro p hp
    obtain ⟨l, hl, _, hg⟩ := e2 p hp
    unfold refStep
    dsimp only
    rw [hg, Option.isNone_some, if_neg Bool.false_ne_true, hg]
    match l, hl with
    | [a, b, c, d, e], _ => rfl
  have hloop : ∀ ps : List Str, (∀ p ∈ ps, refStep d1 p = (d1, none)) → refLoop d1 ps = (d1, none) := by
    intro ps
    induction ps with
    | nil => intro _; rfl
    | cons p ps ih =>
      intro h
      rw [refLoop, h p (List.mem_cons_self)]
      exact ih fun q hq => h q (List.mem_cons_of_mem _ hq)
  unfold prepareRef
  dsimp only
  rw [hloop params hstep]

example (d' : Dict Str (Entry ℚ)) (h : (prepareRef true ["a".toList, "b".toList] (.map [("a".toList, Entry.num (1 : ℚ))])).1 = .ok (some d')) :
    (prepareRef true ["a".toList, "b".toList] (.map d')).1 = .ok (some d') := C115_reference_again _ _ _ h

/-- **C115** is false of the argument ("the dictionary passed is not modified"): the one returned is the one passed, so that a parameter missing in it is there
afterwards. -/
theorem C115_mutates_counterexample (params : List Str) (d : Dict Str (Entry K)) (p : Str) (hp : p ∈ params) (hd : Cobaya.get d p = none)
    (h : ∀ p ∈ params, Want (Cobaya.get d p) ≠ none) :
    ∃ d', (prepareRef true params (.map d)).2 = some d' ∧ Cobaya.get d' p = some (.vals [none, none, none, none, none]) := by
  obtain ⟨d', e1, e2, _⟩ := (refLoop_spec params d).1 h
  refine ⟨d', by unfold prepareRef; dsimp only; rw [e1], ?_⟩
  obtain ⟨l, g1, g2⟩ := e2 p hp
  rw [hd] at g1
  cases g1
  exact g2

/-- **C115** is false without GetDist: the reference is ignored, also if it is not a GetDist sample. -/
theorem C115_getdist_counterexample (params : List Str) (r : Ref K) : (prepareRef false params r).1 = .ok none := by
  cases r <;> rfl

example : Want (some (Entry.vals [some (1 : ℚ)])) = some [none, none, some 1, none, none] ∧ Want (some (Entry.vals [some (1 : ℚ), none])) = none := ⟨rfl, rfl⟩

example : (Cobaya.get ([("a".toList, Entry.num (1 : ℚ))] : Dict Str (Entry ℚ)) "b".toList).isNone = true := by decide

end reference

/-! ## Numbers -/

/-- Number written with decimal digits. -/
def decimal (l : Str) : ℕ := l.foldl (fun n c => 10 * n + (c.toNat - '0'.toNat)) 0

def Digits (l : Str) : Prop := ∀ c ∈ l, '0' ≤ c ∧ c ≤ '9'

theorem foldl_zero (n : ℕ) (l : Str) : (l.dropWhile fun c => decide (c = '0')).foldl (fun n c => 10 * n + (c.toNat - '0'.toNat)) 0 =
    l.foldl (fun n c => 10 * n + (c.toNat - '0'.toNat)) 0 := by
  induction l with
  | nil => rfl
  | cons c l ih =>
    by_cases h : c = '0'
    · rw [List.dropWhile_cons_of_pos (by simpa using h), ih, List.foldl_cons, h]
      rfl
    · rw [List.dropWhile_cons_of_neg (by simpa using h)]

theorem span_notE (m e : Str) (hm : 'e' ∉ m) : (m ++ 'e' :: e).span (fun c => decide (c ≠ 'e')) = (m, 'e' :: e) := by
  rw [List.span_eq_takeWhile_dropWhile]
  have hall : ∀ c ∈ m, decide (c ≠ 'e') = true := by
    intro c hc
    rw [decide_eq_true_iff]
    rintro rfl
    exact hm hc
  rw [List.takeWhile_append_of_pos hall, List.dropWhile_append_of_pos hall]
  simp

theorem notE_digits (l : Str) (h : Digits l) : 'e' ∉ l := fun hc => absurd (h _ hc).2 (by decide)

/-- **C115** (numbers): for a number as written by `%g` or `%e` with exponent (significant figures, `e`, sign, digits), the result has the same figures,
and as exponent the same sign and digits without zeros on the left, with the same value. -/
theorem C115_sci (m ds : Str) (neg : Bool) (hm : 'e' ∉ m) (hd : Digits ds) :
    ∃ ds' : Str, sci (m ++ 'e' :: (if neg then '-' else '+') :: ds) = .ok (m ++ "\\cdot 10^{".toList ++ (if neg then ['-'] else []) ++ ds' ++ ['}']) ∧
      decimal ds' = decimal ds ∧ ds'.head? ≠ some '0' ∧ ds' <:+ ds := by
  refine ⟨ds.dropWhile (fun c => decide (c = '0')), ?_, foldl_zero 0 ds, ?_, List.dropWhile_suffix _⟩
  · unfold sci
    rw [span_notE m _ hm]
    dsimp only
    have h1 : 'e' ∉ ((if neg then '-' else '+') :: ds) := by
      rw [List.mem_cons, not_or]
      refine ⟨?_, notE_digits ds hd⟩
      cases neg <;> decide
    rw [if_neg h1]
    cases neg <;> rfl
  · have : ∀ l : Str, (l.dropWhile fun c => decide (c = '0')).head? ≠ some '0' := by
      intro l
      induction l with
      | nil => simp
      | cons c l ih =>
        by_cases h : c = '0'
        · rw [List.dropWhile_cons_of_pos (by simpa using h)]; exact ih
        · rw [List.dropWhile_cons_of_neg (by simpa using h)]
          simp [h]
    exact this ds

example : ∃ ds', sci "1.5e-05".toList = .ok ("1.5\\cdot 10^{-".toList ++ ds' ++ ['}']) ∧ decimal ds' = 5 := by
  obtain ⟨ds', h, h2, -⟩ := C115_sci "1.5".toList "05".toList true (by decide) (by unfold Digits; decide)
  exact ⟨ds', h, h2⟩

/-- **C115** (numbers without exponent are not changed). -/
theorem C115_sci_plain (s : Str) (h : 'e' ∉ s) : sci s = .ok s := by
  unfold sci
  rw [List.span_eq_takeWhile_dropWhile]
  have hall : ∀ c ∈ s, decide (c ≠ 'e') = true := by
    intro c hc
    rw [decide_eq_true_iff]
    rintro rfl
    exact h hc
  have : s.dropWhile (fun c => decide (c ≠ 'e')) = [] := by
    exact List.dropWhile_eq_nil_iff.2 hall
  rw [this]

example : sci "0.25".toList = .ok "0.25".toList := C115_sci_plain _ (by decide)

/-- **C115** is false of exponents equal to zero, as in all the numbers between 1 and 10 written with `%e`: the exponent is empty, and what is shown is ten
times the number. -/
theorem C115_sci_zero_counterexample (m : Str) (hm : 'e' ∉ m) (k : ℕ) :
    sci (m ++ 'e' :: '+' :: List.replicate k '0') = .ok (m ++ "\\cdot 10^{}".toList) := by
  unfold sci
  rw [span_notE m _ hm]
  dsimp only
  have h1 : 'e' ∉ ('+' :: List.replicate k '0') := by
    rw [List.mem_cons, List.mem_replicate]
    rintro (h | h)
    · revert h; decide
    · exact absurd h.2 (by decide)
  rw [if_neg h1]
  have h2 : (List.replicate k '0').dropWhile (fun c => decide (c = '0')) = [] := by
    refine List.dropWhile_eq_nil_iff.2 ?_
    intro c hc
    rw [List.mem_replicate] at hc
    simp [hc.2]
  simp [h2]

example : sci "1.5e-05".toList = .ok "1.5\\cdot 10^{-5}".toList := by decide +kernel
example : sci "1.500000e+00".toList = .ok "1.500000\\cdot 10^{}".toList := by decide +kernel
example : 'e' ∉ "1.5".toList ∧ Digits "05".toList := by
  refine ⟨by decide, ?_⟩
  unfold Digits
  decide

end GPry.Slices
