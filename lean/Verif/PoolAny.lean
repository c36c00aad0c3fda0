import Mathlib.Algebra.Order.Group.Multiset
import Mathlib.Tactic.Abel
import Mathlib.Tactic.GCongr
import Verif.PoolEx

/-!
# Content of a `RankedPool` after any history of additions (C23)

Nothing is assumed of the conditioned acquisition function: it may grow with more lies and return NaN or infinities.
-/

set_option linter.all false

namespace GPry.Ranked

open GPry.Gpr (maskL)

variable {P Y V : Type*} [LinearOrder V] [BoundedOrder V]

/-- One call that adds points: a point with `add_one`, or a list of them with `add_bulk`. (`add` with one of the methods "single" is a
sequence of the former.) -/
inductive Op (P Y V : Type*)
  | one (c : Cand P Y V)
  | bulk (cs : List (Cand P Y V))

/-- The candidates of a call. -/
def Op.cands : Op P Y V → List (Cand P Y V)
  | .one c => [c]
  | .bulk cs => cs

/-- A call. -/
def Op.run (cfg : Cfg P Y V) (p : Pool P Y V) : Op P Y V → Except PErr (Pool P Y V)
  | .one (x, y, s, a) => addOne cfg p x y s a
  | .bulk cs => .ok (addBulk cfg p (cs.map fun c => c.1) (cs.map fun c => c.2.1) (cs.map fun c => c.2.2.1) (cs.map fun c => c.2.2.2))

/-- A sequence of calls; after an exception nothing more is called. -/
def runOps (cfg : Cfg P Y V) : Pool P Y V → List (Op P Y V) → Except PErr (Pool P Y V)
  | p, [] => .ok p
  | p, o :: os => match o.run cfg p with
    | .error e => .error e
    | .ok p => runOps cfg p os

/-! ## Pools as lists of rows -/

abbrev Row (P Y V : Type*) := Cand P Y V × Option V

def ofRows (R : List (Row P Y V)) (cache : List (Option (List (P × Y)))) : Pool P Y V :=
  ⟨R.map fun r => r.1.1, R.map fun r => r.1.2.1, R.map fun r => r.1.2.2.1, R.map fun r => r.1.2.2.2, R.map fun r => r.2, cache⟩

/-- The content of the non-empty rows. -/
def occR (R : List (Row P Y V)) : Multiset (Cand P Y V) := ↑((R.filter fun t => decide (t.2 ≠ some ⊥)).map Prod.fst)

theorem zip_rows (R : List (Row P Y V)) (cache) :
    ((ofRows R cache).X.zip ((ofRows R cache).y.zip ((ofRows R cache).sigma.zip (ofRows R cache).acq))).zip (ofRows R cache).acqCond = R := by
  unfold ofRows
  induction R with
  | nil => rfl
  | cons r R ih => simp only [List.map_cons, List.zip_cons_cons, ih]

theorem occupied_rows (R : List (Row P Y V)) (cache) : (↑(ofRows R cache).occupied : Multiset (Cand P Y V)) ≤ occR R := by
  unfold Pool.occupied Pool.slots occR
  rw [zip_rows, Multiset.coe_le]
  exact (((List.take_sublist _ _).filter _).map _).subperm

@[simp] theorem occR_nil : occR ([] : List (Row P Y V)) = 0 := rfl

@[simp] theorem occR_append (R R' : List (Row P Y V)) : occR (R ++ R') = occR R + occR R' := by
  simp [occR]

theorem occR_cons (r : Row P Y V) (R : List (Row P Y V)) : occR (r :: R) = occR [r] + occR R := occR_append [r] R

theorem occR_one_le (r : Row P Y V) : occR [r] ≤ {r.1} := by
  unfold occR
  by_cases h : r.2 = some ⊥
  · simp [h]
  · simp [h]

theorem occR_sublist {R R' : List (Row P Y V)} (h : R.Sublist R') : occR R ≤ occR R' := by
  unfold occR
  rw [Multiset.coe_le]
  exact ((h.filter _).map _).subperm

theorem occR_le (R : List (Row P Y V)) : occR R ≤ ↑(R.map Prod.fst) := by
  unfold occR
  rw [Multiset.coe_le]
  exact (List.filter_sublist.map _).subperm

theorem occR_full {R : List (Row P Y V)} (h : ∀ r ∈ R, r.2 ≠ some ⊥) : occR R = ↑(R.map Prod.fst) := by
  unfold occR
  rw [List.filter_eq_self.mpr fun r hr => by simpa using h r hr]

/-! ## One point -/

theorem map_shift {α β : Type*} (f : α → β) (l : List α) (i : ℕ) (v : α) : shift (l.map f) i (f v) = (shift l i v).map f := by
  simp [shift, List.map_dropLast]

theorem shift_length {α : Type*} (l : List α) (i : ℕ) (v : α) (h : i < l.length) : (shift l i v).length = l.length := by
  simp [shift]
  omega

theorem occR_shift (R : List (Row P Y V)) (i : ℕ) (r : Row P Y V) : occR (shift R i r) ≤ {r.1} + occR R := by
  unfold shift
  rw [occR_append, occR_cons]
  have h1 := occR_sublist (List.dropLast_sublist (R.drop i))
  have h2 := occR_one_le r
  have h3 : occR R = occR (R.take i) + occR (R.drop i) := by rw [← occR_append, List.take_append_drop]
  rw [h3]
  calc occR (R.take i) + (occR [r] + occR (R.drop i).dropLast) ≤ occR (R.take i) + ({r.1} + occR (R.drop i)) := by gcongr
    _ = _ := by abel

theorem map_reorder {α β : Type*} (f : α → β) (l : List α) (a b : ℕ) (js : List ℕ) : reorder (l.map f) a b js = (reorder l a b js).map f := by
  simp only [reorder, setSlice, List.map_append, List.map_take, List.map_drop, List.map_filterMap, List.getElem?_map]

/-- One round of `sort` on the rows. -/
def sortRows (R : List (Row P Y V)) (i i1 : ℕ) (ac : List (Option V)) (js : List ℕ) : List (Row P Y V) :=
  setSlice R i i1 (js.filterMap fun j => (R[i + j]?).bind fun r => (ac[j]?).map fun v => (r.1, v))

section SortRows
variable {R : List (Row P Y V)} {i i1 : ℕ} {ac : List (Option V)} {js : List ℕ}

theorem sortRows_col {β : Type*} (f : Cand P Y V → β) (hac : ac.length = i1 - i) (hjs : ∀ j ∈ js, j < i1 - i) :
    reorder (R.map fun r => f r.1) i i1 js = (sortRows R i i1 ac js).map fun r => f r.1 := by
  simp only [reorder, sortRows, setSlice, List.map_append, List.map_take, List.map_drop, List.map_filterMap, List.getElem?_map]
  congr 2
  apply List.filterMap_congr
  intro j hj
  have hj' : j < ac.length := hac ▸ hjs j hj
  rw [List.getElem?_eq_getElem hj']
  cases R[i + j]? <;> rfl

theorem sortRows_cond (hac : ac.length = i1 - i) (hi1 : i1 ≤ R.length) (hjs : ∀ j ∈ js, j < i1 - i) :
    setSlice (R.map fun r => r.2) i i1 (js.filterMap fun j => ac[j]?) = (sortRows R i i1 ac js).map fun r => r.2 := by
  simp only [sortRows, setSlice, List.map_append, List.map_take, List.map_drop, List.map_filterMap]
  congr 2
  apply List.filterMap_congr
  intro j hj
  have hj' : j < ac.length := hac ▸ hjs j hj
  have hr : i + j < R.length := by have := hjs j hj; omega
  rw [List.getElem?_eq_getElem hj', List.getElem?_eq_getElem hr]
  rfl

theorem split3 (R : List (Row P Y V)) (h : i ≤ i1) : R = R.take i ++ slice R i i1 ++ R.drop i1 := by
  unfold slice
  rw [List.drop_take, List.append_assoc]
  conv_lhs => rw [← List.take_append_drop i R, ← List.take_append_drop (i1 - i) (R.drop i), List.drop_drop]
  rw [Nat.add_sub_cancel' h]

theorem slice_get (j : ℕ) (hj : j < i1 - i) : (slice R i i1)[j]? = R[i + j]? := by
  unfold slice
  rw [List.getElem?_drop, List.getElem?_take_of_lt (by omega)]

theorem slice_length (hi1 : i1 ≤ R.length) : (slice R i i1).length = i1 - i := by
  unfold slice
  rw [List.length_drop, List.length_take, min_eq_left hi1]

theorem filterMap_range_get {α : Type*} (l : List α) : (List.range l.length).filterMap (fun j => l[j]?) = l := by
  induction l with
  | nil => rfl
  | cons a l ih =>
    rw [List.length_cons, List.range_succ_eq_map, List.filterMap_cons_some (by rfl), List.filterMap_map]
    congr 1

theorem empty_col {β : Type*} (f : Cand P Y V → β) (h : i ≤ i1) :
    (R.take i ++ ((slice R i i1).map fun r => (r.1, (some ⊥ : Option V))) ++ R.drop i1).map (fun r => f r.1) = R.map fun r => f r.1 := by
  conv_rhs => rw [split3 R h]
  simp only [List.map_append, List.map_map, Function.comp_def]

theorem sortRows_mid (hac : ac.length = i1 - i) (hi1 : i1 ≤ R.length) (hp : js.Perm (List.range (i1 - i))) :
    ((js.filterMap fun j => (R[i + j]?).bind fun r => (ac[j]?).map fun v => (r.1, v)).map Prod.fst).Perm ((slice R i i1).map Prod.fst) := by
  refine ((hp.filterMap _).map _).trans (List.Perm.of_eq ?_)
  rw [List.map_filterMap]
  have : (slice R i i1).map Prod.fst = (List.range (i1 - i)).filterMap fun j => ((slice R i i1).map Prod.fst)[j]? := by
    have hl : ((slice R i i1).map Prod.fst).length = i1 - i := by rw [List.length_map, slice_length hi1]
    rw [← hl]
    exact (filterMap_range_get _).symm
  rw [this]
  apply List.filterMap_congr
  intro j hj
  have hj' : j < i1 - i := List.mem_range.mp hj
  rw [List.getElem?_map, slice_get j hj', List.getElem?_eq_getElem (hac ▸ hj' : j < ac.length)]
  cases R[i + j]? <;> rfl

theorem occR_sortRows (hi : i ≤ i1) (hac : ac.length = i1 - i) (hi1 : i1 ≤ R.length) (hp : js.Perm (List.range (i1 - i)))
    (hocc : ∀ r ∈ slice R i i1, r.2 ≠ some ⊥) : occR (sortRows R i i1 ac js) ≤ occR R := by
  conv_rhs => rw [split3 R hi]
  unfold sortRows setSlice
  simp only [occR_append]
  gcongr
  rw [occR_full hocc]
  refine (occR_le _).trans (le_of_eq ?_)
  exact Multiset.coe_eq_coe.mpr (sortRows_mid hac hi1 hp)

theorem sortRows_length (hi : i ≤ i1) (hac : ac.length = i1 - i) (hi1 : i1 ≤ R.length) (hp : js.Perm (List.range (i1 - i))) :
    (sortRows R i i1 ac js).length = R.length := by
  have h1 := (sortRows_mid hac hi1 hp).length_eq
  rw [List.length_map, List.length_map, slice_length hi1] at h1
  unfold sortRows setSlice
  rw [List.length_append, List.length_append, h1, List.length_take, List.length_drop]
  omega

end SortRows

theorem rows_len (R : List (Row P Y V)) (cache) : (ofRows R cache).len = R.length - 1 := by
  simp [Pool.len, ofRows]

theorem cacheModel_rows (R : List (Row P Y V)) (cache) (i : ℕ) : ∃ cache', (ofRows R cache).cacheModel i = ofRows R cache' := by
  unfold Pool.cacheModel
  split
  · exact ⟨cache, rfl⟩
  · exact ⟨_, rfl⟩

/-- `sort` keeps the rows, apart from their order and from the values for which they become empty. -/
theorem sortFrom_rows (cfg : Cfg P Y V) (hperm : ∀ l, (cfg.argsortDesc l).Perm (List.range l.length)) :
    ∀ (n : ℕ) (R : List (Row P Y V)) (cache) (p' : Pool P Y V), n < R.length → sortFrom cfg n (ofRows R cache) = .ok p' →
      ∃ R' cache', p' = ofRows R' cache' ∧ R'.length = R.length ∧ occR R' ≤ occR R := by
  intro n
  induction n with
  | zero =>
    intro R cache p' _ h
    simp only [sortFrom, Except.ok.injEq] at h
    exact ⟨R, cache, h.symm, rfl, le_rfl⟩
  | succ n ih =>
    intro R cache p' hn h
    unfold sortFrom at h
    rw [rows_len] at h
    obtain ⟨cache', hc⟩ := cacheModel_rows R cache (R.length - 1 - (n + 1))
    simp only [hc] at h
    generalize hi : R.length - 1 - (n + 1) = i at h
    split at h
    · simp only [Except.ok.injEq] at h
      exact ⟨R, cache', h.symm, rfl, le_rfl⟩
    · rename_i hne
      generalize hi1 : (ofRows R cache').acqCond.findIdx (fun c => decide (c = some ⊥)) = i1 at h
      have hle : i1 ≤ R.length := by
        rw [← hi1]
        refine List.findIdx_le_length.trans (le_of_eq ?_)
        simp [ofRows]
      generalize hac0 : ((slice (ofRows R cache').X i i1).zip (slice (ofRows R cache').y i i1)).map (fun q => cfg.cond ((ofRows R cache').pre i) q.1 q.2) = ac0 at h
      generalize hac : (if i = 0 then ac0 else ac0.map fun v => npMin2 v ((ofRows R cache').acqCond.getD (i - 1) none)) = ac at h
      have hl0 : ac0.length = i1 - i := by
        rw [← hac0]
        simp only [List.length_map, List.length_zip, slice, List.length_drop, List.length_take, ofRows]
        omega
      have hl : ac.length = i1 - i := by
        rw [← hac]
        split
        · exact hl0
        · rw [List.length_map, hl0]
      have hp := hperm ac
      rw [hl] at hp
      generalize hjs : cfg.argsortDesc ac = js at h hp
      rcases js with _ | ⟨j0, js⟩
      · simp at h
      · have hlt : i < i1 := by
          have := hp.length_eq
          simp at this
          omega
        have hocc : ∀ r ∈ slice R i i1, r.2 ≠ some ⊥ := by
          intro r hr
          obtain ⟨k, hk, rfl⟩ := List.mem_iff_getElem.mp hr
          rw [slice_length hle] at hk
          have hkk : i + k < (ofRows R cache').acqCond.findIdx (fun c => decide (c = some ⊥)) := by rw [hi1]; omega
          have := List.not_of_lt_findIdx hkk
          simp [ofRows] at this
          have he : (slice R i i1)[k]'(by rw [slice_length hle]; exact hk) = R[i + k]'(by omega) := by
            have := slice_get (R := R) k hk
            rw [List.getElem?_eq_getElem (by rw [slice_length hle]; exact hk), List.getElem?_eq_getElem (by omega)] at this
            exact Option.some.inj this
          rw [he]
          exact this
        simp only at h
        split at h
        · simp only [Except.ok.injEq] at h
          refine ⟨R.take i ++ ((slice R i i1).map fun r => (r.1, some ⊥)) ++ R.drop i1, cache', ?_, ?_, ?_⟩
          · rw [← h]
            unfold ofRows
            rw [empty_col (fun c => c.1) hlt.le, empty_col (fun c => c.2.1) hlt.le, empty_col (fun c => c.2.2.1) hlt.le, empty_col (fun c => c.2.2.2) hlt.le]
            congr 1
            simp only [setSlice, List.map_append, List.map_map, Function.comp_def, List.map_take, List.map_drop]
            congr 2
            rw [List.map_const', slice_length hle]
          · have := congrArg List.length (split3 R hlt.le)
            simp only [List.length_append, List.length_map] at this ⊢
            exact this.symm
          · conv_rhs => rw [split3 R hlt.le]
            simp only [occR_append]
            gcongr
            have : occR ((slice R i i1).map fun r => (r.1, (some ⊥ : Option V))) = 0 := by
              unfold occR
              rw [List.filter_eq_nil_iff.mpr]
              · rfl
              · intro r hr
                obtain ⟨q, -, rfl⟩ := List.mem_map.mp hr
                simp
            rw [this]
            exact Multiset.zero_le _
        · have hmem : ∀ j ∈ j0 :: js, j < i1 - i := fun j hj => List.mem_range.mp (hp.subset hj)
          have hrow : (⟨reorder (ofRows R cache').X i i1 (j0 :: js), reorder (ofRows R cache').y i i1 (j0 :: js),
              reorder (ofRows R cache').sigma i i1 (j0 :: js), reorder (ofRows R cache').acq i i1 (j0 :: js),
              setSlice (ofRows R cache').acqCond i i1 ((j0 :: js).filterMap fun j => ac[j]?), (ofRows R cache').cache⟩ : Pool P Y V) =
              ofRows (sortRows R i i1 ac (j0 :: js)) cache' := by
            unfold ofRows
            simp only
            rw [sortRows_col (fun c => c.1) hl hmem, sortRows_col (fun c => c.2.1) hl hmem, sortRows_col (fun c => c.2.2.1) hl hmem,
              sortRows_col (fun c => c.2.2.2) hl hmem, sortRows_cond hl hle hmem]
          rw [hrow] at h
          obtain ⟨R', c', h1, h2, h3⟩ := ih _ _ _ (by rw [sortRows_length hlt.le hl hle hp]; omega) h
          exact ⟨R', c', h1, by rw [h2, sortRows_length hlt.le hl hle hp], h3.trans (occR_sortRows hlt.le hl hle hp hocc)⟩

theorem addOne_rows (cfg : Cfg P Y V) (hperm : ∀ l, (cfg.argsortDesc l).Perm (List.range l.length)) (R : List (Row P Y V)) (cache) (x : P) (y s : Y)
    (a : Option V) (p' : Pool P Y V) (hR : 0 < R.length) (h : addOne cfg (ofRows R cache) x y s a = .ok p') :
    ∃ R' cache', p' = ofRows R' cache' ∧ R'.length = R.length ∧ occR R' ≤ {(x, y, s, a)} + occR R := by
  have hsame : ∃ R' cache', ofRows R cache = ofRows R' cache' ∧ R'.length = R.length ∧ occR R' ≤ {(x, y, s, a)} + occR R :=
    ⟨R, cache, rfl, rfl, Multiset.le_add_left _ _⟩
  unfold addOne at h
  split at h
  · simp only [Except.ok.injEq] at h
    exact h ▸ hsame
  · rcases a with _ | v
    · simp at h
    · simp only at h
      split at h
      · simp at h
      · rename_i i ac _
        split at h
        · simp only [Except.ok.injEq] at h
          exact h ▸ hsame
        · rename_i hi
          rw [rows_len] at hi
          have hsh : (⟨shift (ofRows R cache).X i x, shift (ofRows R cache).y i y, shift (ofRows R cache).sigma i s,
              shift (ofRows R cache).acq i (some v), shift (ofRows R cache).acqCond i ac, (ofRows R cache).cache⟩ : Pool P Y V) =
              ofRows (shift R i ((x, y, s, some v), ac)) cache := by
            unfold ofRows
            simp only
            rw [← map_shift, ← map_shift, ← map_shift, ← map_shift, ← map_shift]
          rw [hsh] at h
          have hlen : (shift R i ((x, y, s, some v), ac)).length = R.length := shift_length R i _ (by omega)
          split at h
          · split at h
            · simp at h
            · rename_i q hq
              simp only [Except.ok.injEq] at h
              unfold sort at hq
              rw [rows_len, hlen] at hq
              obtain ⟨R', c', rfl, h2, h3⟩ := sortFrom_rows cfg hperm _ _ _ _ (by rw [hlen]; omega) hq
              refine ⟨R'.dropLast ++ (R'.getLast?.toList.map fun r => (r.1, some ⊥)), c', ?_, ?_, ?_⟩
              · rw [← h]
                have hne : R' ≠ [] := by
                  intro h0
                  rw [h0] at h2
                  simp at h2
                  omega
                obtain ⟨L, z, rfl⟩ := List.eq_nil_or_concat R' |>.resolve_left hne
                simp [ofRows]
              · have hne : R' ≠ [] := by
                  intro h0
                  rw [h0] at h2
                  simp at h2
                  omega
                obtain ⟨L, z, rfl⟩ := List.eq_nil_or_concat R' |>.resolve_left hne
                rw [← hlen, ← h2]
                simp
              · rw [occR_append]
                have h0 : occR (R'.getLast?.toList.map fun r => (r.1, (some ⊥ : Option V))) = 0 := by
                  unfold occR
                  rw [List.filter_eq_nil_iff.mpr]
                  · rfl
                  · intro r hr
                    obtain ⟨q, -, rfl⟩ := List.mem_map.mp hr
                    simp
                rw [h0, add_zero]
                exact (occR_sublist (List.dropLast_sublist R')).trans (h3.trans (occR_shift R i _))
          · simp at h

/-! ## Many points at once -/

theorem map_maskL {α β : Type*} (f : α → β) : ∀ (m : List Bool) (l : List α), maskL m (l.map f) = (maskL m l).map f
  | [], _ => by simp [maskL]
  | _ :: _, [] => by simp [maskL]
  | true :: m, a :: l => by simp [maskL, map_maskL f m l]
  | false :: m, a :: l => by simp [maskL, map_maskL f m l]

theorem maskL_sub {α : Type*} : ∀ (m : List Bool) (l : List α), (maskL m l).Sublist l
  | [], _ => by simp [maskL]
  | _ :: _, [] => by simp [maskL]
  | true :: m, a :: l => by simpa [maskL] using maskL_sub m l
  | false :: m, a :: l => by simpa [maskL] using (maskL_sub m l).trans (List.sublist_cons_self _ _)

theorem maskL_drop {α : Type*} : ∀ (m : List Bool) (l : List α) (k : ℕ) (c : α), l[k]? = some c → k < m.length →
    (c :: maskL (m.set k false) l).Subperm l
  | [], _, k, c, _, h => by simp at h
  | _ :: _, [], k, c, h, _ => by simp at h
  | b :: m, a :: l, 0, c, h, _ => by
    simp only [List.getElem?_cons_zero, Option.some.injEq] at h
    subst h
    simp only [List.set_cons_zero, maskL]
    exact ((maskL_sub m l).cons_cons _).subperm
  | b :: m, a :: l, k + 1, c, h, hk => by
    have ih := maskL_drop m l k c (by simpa using h) (by simpa using hk)
    simp only [List.set_cons_succ]
    cases b
    · simp only [maskL]
      exact ih.trans (List.sublist_cons_self _ _).subperm
    · simp only [maskL]
      exact ((List.Perm.swap _ _ _).subperm).trans ((List.subperm_cons a).mpr ih)

theorem occR_set (R : List (Row P Y V)) (i : ℕ) (r : Row P Y V) : occR (R.set i r) ≤ {r.1} + occR R := by
  by_cases h : i < R.length
  · rw [List.set_eq_take_append_cons_drop, if_pos h]
    conv_rhs => rw [← List.take_append_drop i R, List.drop_eq_getElem_cons h]
    rw [occR_append, occR_append, occR_cons r, occR_cons R[i]]
    have h2 := occR_one_le r
    calc occR (R.take i) + (occR [r] + occR (R.drop (i + 1))) ≤ occR (R.take i) + ({r.1} + (occR [R[i]] + occR (R.drop (i + 1)))) := by
          gcongr
          exact Multiset.le_add_left _ _
      _ = _ := by abel
  · rw [List.set_eq_of_length_le (by omega)]
    exact Multiset.le_add_left _ _

theorem bulkFrom_rows (cfg : Cfg P Y V) : ∀ (n : ℕ) (R : List (Row P Y V)) (cache) (cs : List (Cand P Y V)),
    ∃ R' cache', bulkFrom cfg (cs.map fun c => c.1) (cs.map fun c => c.2.1) (cs.map fun c => c.2.2.1) (cs.map fun c => c.2.2.2) n (ofRows R cache) =
      ofRows R' cache' ∧ R'.length = R.length ∧ occR R' ≤ ↑cs + occR R := by
  intro n
  induction n with
  | zero =>
    intro R cache cs
    unfold bulkFrom
    obtain ⟨cache', hc⟩ := cacheModel_rows R cache ((ofRows R cache).len - 1 - 0)
    simp only [hc]
    generalize (ofRows R cache).len - 1 - 0 = i
    generalize hac : (if i = 0 then cs.map (fun c => c.2.2.2) else ((cs.map fun c => c.1).zip (cs.map fun c => c.2.1)).map fun q => cfg.cond ((ofRows R cache').pre i) q.1 q.2) = ac
    have hsame : ∃ R' c', ofRows R cache' = ofRows R' c' ∧ R'.length = R.length ∧ occR R' ≤ ↑cs + occR R := ⟨R, cache', rfl, rfl, Multiset.le_add_left _ _⟩
    generalize argmax ac = im
    simp only [List.getElem?_map]
    cases hm : cs[im]? with
    | none => exact hsame
    | some c =>
      cases ac[im]? with
      | none => exact hsame
      | some m =>
        simp only [Option.map_some]
        split
        · exact hsame
        · refine ⟨R.set i (c, m), cache', ?_, by simp, (occR_set _ _ _).trans ?_⟩
          · simp [ofRows, List.map_set]
          · gcongr
            exact Multiset.singleton_le.mpr (Multiset.mem_coe.mpr (List.mem_of_getElem? hm))
  | succ n ih =>
    intro R cache cs
    unfold bulkFrom
    obtain ⟨cache', hc⟩ := cacheModel_rows R cache ((ofRows R cache).len - 1 - (n + 1))
    simp only [hc]
    generalize (ofRows R cache).len - 1 - (n + 1) = i
    generalize hac : (if i = 0 then cs.map (fun c => c.2.2.2) else ((cs.map fun c => c.1).zip (cs.map fun c => c.2.1)).map fun q => cfg.cond ((ofRows R cache').pre i) q.1 q.2) = ac
    have hl : ac.length = cs.length := by
      rw [← hac]
      split <;> simp
    have hsame : ∃ R' c', ofRows R cache' = ofRows R' c' ∧ R'.length = R.length ∧ occR R' ≤ ↑cs + occR R := ⟨R, cache', rfl, rfl, Multiset.le_add_left _ _⟩
    generalize argmax ac = im
    simp only [List.getElem?_map]
    cases hm : cs[im]? with
    | none => exact hsame
    | some c =>
      cases ham : ac[im]? with
      | none => exact hsame
      | some m =>
        simp only [Option.map_some]
        split
        · exact hsame
        · have him : im < cs.length := by
            have := List.getElem?_eq_some_iff.mp hm
            exact this.1
          have hset : (⟨(ofRows R cache').X.set i c.1, (ofRows R cache').y.set i c.2.1, (ofRows R cache').sigma.set i c.2.2.1, (ofRows R cache').acq.set i c.2.2.2,
              (ofRows R cache').acqCond.set i m, (ofRows R cache').cache⟩ : Pool P Y V) = ofRows (R.set i (c, m)) cache' := by
            simp [ofRows, List.map_set]
          rw [hset]
          simp only [map_maskL]
          generalize hmask : ac.map (fun v => !decide (v = some ⊥)) = mk
          have hmk : mk.length = cs.length := by rw [← hmask, List.length_map, hl]
          obtain ⟨R', c', h1, h2, h3⟩ := ih (R.set i (c, m)) cache' (maskL (mk.set im false) cs)
          refine ⟨R', c', h1, by simpa using h2, h3.trans ?_⟩
          have hd := maskL_drop mk cs im c hm (hmk ▸ him)
          calc (↑(maskL (mk.set im false) cs) : Multiset (Cand P Y V)) + occR (R.set i (c, m)) ≤ ↑(maskL (mk.set im false) cs) + ({c} + occR R) := by
                gcongr
                exact occR_set _ _ _
            _ = (c ::ₘ ↑(maskL (mk.set im false) cs)) + occR R := by
                rw [← Multiset.singleton_add]
                abel
            _ ≤ ↑cs + occR R := by
                gcongr
                rw [Multiset.cons_coe, Multiset.coe_le]
                exact hd

/-- **C23** (any history). After any sequence of successful additions, one by one or in bulk, in any order and to a pool with any content, every
non-empty slot holds an offered candidate with its own values, and no candidate more often than it was offered; the number of slots is the initial
one. Nothing is assumed of the conditioned acquisition function. -/
theorem C23_any_history {cfg : Cfg P Y V} (hperm : ∀ l, (cfg.argsortDesc l).Perm (List.range l.length)) (x0 : P) (y0 : Y) (a0 : V) (size : ℕ)
    (ops : List (Op P Y V)) (p : Pool P Y V) (h : runOps cfg (Pool.init x0 y0 a0 size) ops = .ok p) :
    p.occupied.Subperm (ops.flatMap Op.cands) ∧ p.len = size ∧ p.slots.length = size := by
  have key : ∀ (ops : List (Op P Y V)) (R : List (Row P Y V)) (cache) (p : Pool P Y V), 0 < R.length → runOps cfg (ofRows R cache) ops = .ok p →
      ∃ R' cache', p = ofRows R' cache' ∧ R'.length = R.length ∧ occR R' ≤ ↑(ops.flatMap Op.cands) + occR R := by
    intro ops
    induction ops with
    | nil =>
      intro R cache p _ h
      simp only [runOps, Except.ok.injEq] at h
      exact ⟨R, cache, h.symm, rfl, Multiset.le_add_left _ _⟩
    | cons o os ih =>
      intro R cache p hR h
      simp only [runOps] at h
      have step : ∀ q, o.run cfg (ofRows R cache) = .ok q → ∃ R' cache', q = ofRows R' cache' ∧ R'.length = R.length ∧ occR R' ≤ ↑o.cands + occR R := by
        intro q hq
        rcases o with ⟨x, y, s, a⟩ | cs
        · exact addOne_rows cfg hperm R cache x y s a q hR hq
        · simp only [Op.run, addBulk, Except.ok.injEq] at hq
          obtain ⟨R', c', h1, h2, h3⟩ := bulkFrom_rows cfg ((ofRows R cache).len - 1) R cache cs
          exact ⟨R', c', by rw [← hq, h1], h2, h3⟩
      cases hq : o.run cfg (ofRows R cache) with
      | error e => rw [hq] at h; cases h
      | ok q =>
        rw [hq] at h
        obtain ⟨R1, c1, rfl, h2, h3⟩ := step q hq
        obtain ⟨R', c', rfl, h5, h6⟩ := ih R1 c1 p (by omega) h
        refine ⟨R', c', rfl, h5.trans h2, h6.trans ?_⟩
        rw [List.flatMap_cons, ← Multiset.coe_add]
        calc (↑(os.flatMap Op.cands) : Multiset (Cand P Y V)) + occR R1 ≤ ↑(os.flatMap Op.cands) + (↑o.cands + occR R) := by gcongr
          _ = _ := by abel
  have hinit : (Pool.init x0 y0 a0 size : Pool P Y V) = ofRows (List.replicate (size + 1) ((x0, y0, y0, some a0), some ⊥)) (List.replicate (size + 1) none) := by
    simp [Pool.init, ofRows]
  rw [hinit] at h
  obtain ⟨R', c', rfl, h2, h3⟩ := key ops _ _ p (by simp) h
  have h0 : occR (List.replicate (size + 1) (((x0, y0, y0, some a0), some ⊥) : Row P Y V)) = 0 := by
    unfold occR
    rw [List.filter_eq_nil_iff.mpr]
    · rfl
    · intro r hr
      rw [(List.mem_replicate.mp hr).2]
      simp
  rw [h0, add_zero] at h3
  rw [List.length_replicate] at h2
  refine ⟨Multiset.coe_le.mp ((occupied_rows R' c').trans h3), by rw [rows_len, h2]; rfl, ?_⟩
  unfold Pool.slots
  rw [zip_rows, rows_len, h2, List.length_take, h2]
  simp

/-- A bulk call on a pool with three points leaves the last of them below the two new ones, out of order; a further point is added to it. -/
example : ((runOps exP (Pool.init 0 () 0 3) [.one (exC 0), .one (exC 5), .one (exC 6), .bulk [exC 2, exC 9], .one (exC 3)]).toOption.map
    fun p => p.slots.map fun t => (t.1.1, t.2)) = some [(2, some 80), (3, some 35), (5, some 35)] := by
  decide +kernel

example : ((runOps exP (Pool.init 0 () 0 3) [.one (exC 0), .one (exC 5), .one (exC 6), .bulk [exC 2, exC 9]]).toOption.map
    fun p => p.slots.map fun t => (t.1.1, t.2)) = some [(2, some 80), (9, some 5), (5, some 27)] := by
  decide +kernel

/-- The assumption on sorting. -/
example : ∀ l, (exP.argsortDesc l).Perm (List.range l.length) := fun l => List.perm_insertionSort _ _

/-- A second bulk call on a pool with content: the theorem applied to it. -/
example (p) (h : runOps exP (Pool.init 0 () 0 3) [.one (exC 0), .bulk [exC 2, exC 9], .one (exC 3)] = .ok p) :
    p.occupied.Subperm [exC 0, exC 2, exC 9, exC 3] ∧ p.len = 3 ∧ p.slots.length = 3 :=
  C23_any_history (fun l => List.perm_insertionSort _ _) 0 () 0 3 _ p h

end GPry.Ranked
