import Verif.Conv
import Mathlib.Algebra.Order.Ring.Rat
import Mathlib.Algebra.Field.Rat
import Mathlib.Data.List.Induction

set_option linter.all false

namespace GPry.Conv

variable {K : Type*} [Field K] [LinearOrder K]

theorem runCalls_append {S I O : Type*} (step : S → I → S × O) : ∀ (s : S) (l m : List I),
    runCalls step s (l ++ m) = ((runCalls step (runCalls step s l).1 m).1, (runCalls step s l).2 ++ (runCalls step (runCalls step s l).1 m).2)
  | s, [], m => rfl
  | s, i :: l, m => by
    simp only [List.cons_append, runCalls, runCalls_append step _ l m]

theorem runCalls_concat {S I O : Type*} (step : S → I → S × O) (s : S) (l : List I) (i : I) :
    runCalls step s (l ++ [i]) = ((step (runCalls step s l).1 i).1, (runCalls step s l).2 ++ [(step (runCalls step s l).1 i).2]) := by
  rw [runCalls_append]; rfl

theorem lastN_all {A : Type*} (p : A → Bool) {n : ℕ} (hn : 1 ≤ n) (l : List A) :
    (lastN n l).all p = true ↔ ∀ i (hi : i < l.length), l.length - n ≤ i → p l[i] = true := by
  unfold lastN
  rw [if_neg (by omega), List.all_eq_true]
  constructor
  · intro h i hi hle
    apply h
    rw [List.mem_iff_getElem]
    exact ⟨i - (l.length - n), by rw [List.length_drop]; omega, by rw [List.getElem_drop]; congr 1; omega⟩
  · intro h x hx
    rw [List.mem_iff_getElem] at hx
    obtain ⟨i, hi, rfl⟩ := hx
    rw [List.length_drop] at hi
    rw [List.getElem_drop]
    exact h _ (by omega) (by omega)

/-! ## C36 -/

section KL
variable {M : Type*}

/-- The divergence between a sample and an earlier one, `nan` if one of them is missing, or if it cannot be computed or is
negative. -/
def klEntry (kl : M → M → Option (Ext K)) : Option M → Option M → Ext K
  | some m, some m0 => match kl m m0 with
    | some v => if v.lt (.fin 0) then .nan else v
    | none => .nan
  | _, _ => .nan

/-- The value that the call number `i` of a history should record: the divergence between the sample of that call and the
latest one before. -/
def klSpec (kl : M → M → Option (Ext K)) (h : List (Option M)) (i : ℕ) : Ext K :=
  klEntry kl (h[i]?).join ((h.take i).filterMap id).getLast?

theorem gaussian_state (kl : M → M → Option (Ext K)) (limit : K) (lt : ℕ) : ∀ h : List (Option M),
    (runCalls (fun s i => KL.converged limit lt (KL.gaussian kl s i)) KL.init h).1.last = (h.filterMap id).getLast? ∧
    (runCalls (fun s i => KL.converged limit lt (KL.gaussian kl s i)) KL.init h).1.values =
      (List.range h.length).map (klSpec kl h) := by
  intro h
  induction h using List.reverseRecOn with
  | nil => exact ⟨rfl, rfl⟩
  | append_singleton h x ih =>
    obtain ⟨ih1, ih2⟩ := ih
    rw [runCalls_concat]
    obtain ⟨s, hs⟩ : ∃ s, s = (runCalls (fun s i => KL.converged limit lt (KL.gaussian kl s i)) KL.init h).1 := ⟨_, rfl⟩
    rw [← hs] at ih1 ih2 ⊢
    have hspec : (List.range (h ++ [x]).length).map (klSpec kl (h ++ [x])) =
        (List.range h.length).map (klSpec kl h) ++ [klSpec kl (h ++ [x]) h.length] := by
      rw [List.length_append, List.length_singleton, List.range_succ, List.map_append, List.map_singleton]
      congr 1
      apply List.map_congr_left
      intro i hi
      rw [List.mem_range] at hi
      unfold klSpec
      rw [List.getElem?_append_left hi, List.take_append_of_le_length hi.le]
    have hlast : klSpec kl (h ++ [x]) h.length = klEntry kl x (h.filterMap id).getLast? := by
      unfold klSpec
      rw [List.getElem?_append_right le_rfl, Nat.sub_self, List.take_left]
      cases x <;> rfl
    rw [hspec, ← ih2, hlast, ← ih1]
    dsimp only
    unfold KL.gaussian klEntry
    cases x with
    | none => simp [KL.converged, ih1]
    | some m =>
      cases hl : s.last with
      | none => simp [KL.converged]
      | some m0 =>
        cases hk : kl m m0 with
        | none => simp [KL.converged, hk]
        | some v =>
          by_cases hv : v.lt (.fin 0) = true
          · simp [KL.converged, hk, hv]
          · simp [KL.converged, hk, hv]

/-- **C36** (GaussianKL): a call returns true if and only if it computes a value and the values of the last `limit_times`
calls are numbers smaller than the limit; this takes at least `limit_times + 1` calls. -/
theorem C36_gaussian_kl (kl : M → M → Option (Ext K)) (limit : K) (lt : ℕ) (hlt : 1 ≤ lt) (h : List (Option M)) (x : Option M) :
    (runCalls (fun s i => KL.converged limit lt (KL.gaussian kl s i)) KL.init (h ++ [x])).2.getLast? = some (.ok true) ↔
      lt < (h ++ [x]).length ∧ ∀ i, i < (h ++ [x]).length → (h ++ [x]).length - lt ≤ i →
        ∃ v, klSpec kl (h ++ [x]) i = .fin v ∧ |v| < limit := by
  obtain ⟨hl, hv⟩ := gaussian_state kl limit lt (h ++ [x])
  obtain ⟨hl0, hv0⟩ := gaussian_state kl limit lt h
  rw [runCalls_concat] at hv ⊢
  obtain ⟨s, hs⟩ : ∃ s, s = (runCalls (fun s i => KL.converged limit lt (KL.gaussian kl s i)) KL.init h).1 := ⟨_, rfl⟩
  rw [← hs] at hv hl0 hv0 ⊢
  dsimp only at hv ⊢
  rw [List.getLast?_concat, Option.some.injEq]
  -- the first value is never a number
  have hfirst : klSpec kl (h ++ [x]) 0 = .nan := by
    unfold klSpec
    simp only [List.take_zero, List.filterMap_nil, List.getLast?_nil]
    unfold klEntry
    split <;> simp_all
  have habs : ∀ w : Ext K, absLt limit w = true ↔ ∃ v, w = .fin v ∧ |v| < limit := by
    intro w
    cases w <;> simp [absLt]
  have hall : (lastN lt ((List.range (h ++ [x]).length).map (klSpec kl (h ++ [x])))).all (absLt limit) = true ↔
      lt < (h ++ [x]).length ∧ ∀ i, i < (h ++ [x]).length → (h ++ [x]).length - lt ≤ i →
        ∃ v, klSpec kl (h ++ [x]) i = .fin v ∧ |v| < limit := by
    rw [lastN_all _ hlt]
    simp only [List.length_map, List.length_range, List.getElem_map, List.getElem_range, habs]
    constructor
    · intro H
      refine ⟨?_, fun i hi hle => H i hi hle⟩
      by_contra hc
      obtain ⟨v, hv, _⟩ := H 0 (by simp) (by omega)
      rw [hfirst] at hv; cases hv
    · rintro ⟨_, H⟩ i hi hle
      exact H i hi hle
  constructor
  · intro hr
    rw [← hall, ← hv]
    revert hr
    unfold KL.converged
    generalize KL.gaussian kl s x = r
    rcases r with ⟨r, e | v⟩
    · intro hr; cases hr
    · intro hr; injection hr
  · intro H
    have hb := hall.2 H
    rw [← hv] at hb
    -- the last value is a number, so there was no exception
    obtain ⟨v, hv1, hv2⟩ := H.2 h.length (by simp) (by simp; omega)
    have hlast : (KL.converged limit lt (KL.gaussian kl s x)).1.values.getLast? = some (.fin v) := by
      rw [hv, List.length_append, List.length_singleton, List.range_succ, List.map_append, List.map_singleton, List.getLast?_concat, hv1]
    revert hb hlast
    unfold KL.converged KL.gaussian
    cases x with
    | none => intro _ hl; simp at hl
    | some m =>
      cases s.last with
      | none => intro _ hl; simp at hl
      | some m0 =>
        dsimp only
        cases kl m m0 with
        | none => intro _ hl; simp at hl
        | some w =>
          dsimp only
          by_cases hw : w.lt (.fin 0) = true
          · rw [if_pos hw]; intro _ hl; simp at hl
          · rw [if_neg hw]
            intro hb _
            simp only at hb ⊢
            rw [hb]

/-- The value of a call of the other two criteria. -/
def trainSpec {T : Type*} (kl : M → T → Option (Ext K)) (floor : Option K) : Option M × Option T → Ext K
  | (some m, some t) => match kl m t with
    | some v => if v.lt (.fin 0) then .nan else match floor with
      | none => v
      | some f => Ext.pyMax2 v (.fin f)
    | none => .nan
  | _ => .nan

theorem train_step {T : Type*} (kl : M → T → Option (Ext K)) (floor : Option K) (s : KL M K) (x : Option M × Option T) :
    (KL.train kl floor s x.1 x.2).1.values = s.values ++ [trainSpec kl floor x] ∧
    ((∃ v, (KL.train kl floor s x.1 x.2).2 = .ok v) ∨ (trainSpec kl floor x = .nan ∧ ∃ e, (KL.train kl floor s x.1 x.2).2 = .error e)) := by
  rcases x with ⟨_ | m, t⟩
  · exact ⟨rfl, Or.inr ⟨rfl, _, rfl⟩⟩
  · cases t with
    | none => exact ⟨rfl, Or.inr ⟨rfl, _, rfl⟩⟩
    | some t =>
      unfold KL.train trainSpec
      dsimp only
      cases kl m t with
      | none => exact ⟨rfl, Or.inr ⟨rfl, _, rfl⟩⟩
      | some v =>
        dsimp only
        split
        · exact ⟨rfl, Or.inr ⟨rfl, _, rfl⟩⟩
        · exact ⟨rfl, Or.inl ⟨_, rfl⟩⟩

/-- **C36** (GaussianKLTrain, TrainAlignment), partial: a call returns true if and only if the values of the last
`limit_times` calls (of all of them, if there were fewer) are numbers smaller than the limit. (Missing: at least `limit_times`
calls, see `C36_train_counterexample`.) -/
theorem C36_train_partial {T : Type*} (kl : M → T → Option (Ext K)) (floor : Option K) (limit : K) (lt : ℕ) (hlt : 1 ≤ lt)
    (h : List (Option M × Option T)) (x : Option M × Option T) :
    (runCalls (fun s i => KL.converged limit lt (KL.train kl floor s i.1 i.2)) KL.init (h ++ [x])).2.getLast? = some (.ok true) ↔
      ∀ i (hi : i < (h ++ [x]).length), (h ++ [x]).length - lt ≤ i → ∃ v, trainSpec kl floor (h ++ [x])[i] = .fin v ∧ |v| < limit := by
  have hvals : ∀ l : List (Option M × Option T),
      (runCalls (fun s i => KL.converged limit lt (KL.train kl floor s i.1 i.2)) KL.init l).1.values = l.map (trainSpec kl floor) := by
    intro l
    induction l using List.reverseRecOn with
    | nil => rfl
    | append_singleton l y ih =>
      rw [runCalls_concat, List.map_append, List.map_singleton, ← ih]
      dsimp only
      rw [← (train_step kl floor _ y).1]
      unfold KL.converged
      split <;> simp_all
  have habs : ∀ w : Ext K, absLt limit w = true ↔ ∃ v, w = .fin v ∧ |v| < limit := by
    intro w
    cases w <;> simp [absLt]
  have hall : (lastN lt ((h ++ [x]).map (trainSpec kl floor))).all (absLt limit) = true ↔
      ∀ i (hi : i < (h ++ [x]).length), (h ++ [x]).length - lt ≤ i → ∃ v, trainSpec kl floor (h ++ [x])[i] = .fin v ∧ |v| < limit := by
    rw [lastN_all _ hlt]
    simp only [List.length_map, List.getElem_map, habs]
  rw [← hall]
  have hv := hvals (h ++ [x])
  rw [runCalls_concat] at hv ⊢
  obtain ⟨s, hs⟩ : ∃ s, s = (runCalls (fun s i => KL.converged limit lt (KL.train kl floor s i.1 i.2)) KL.init h).1 := ⟨_, rfl⟩
  rw [← hs] at hv ⊢
  dsimp only at hv ⊢
  rw [List.getLast?_concat, Option.some.injEq, ← hv]
  rcases train_step kl floor s x with ⟨h1, ⟨v, h2⟩ | ⟨h2, e, h3⟩⟩
  · have he : KL.converged limit lt (KL.train kl floor s x.1 x.2) =
        ((KL.train kl floor s x.1 x.2).1, .ok ((lastN lt (KL.train kl floor s x.1 x.2).1.values).all (absLt limit))) := by
      unfold KL.converged
      split <;> simp_all
    rw [he]
    simp
  · have he : KL.converged limit lt (KL.train kl floor s x.1 x.2) = ((KL.train kl floor s x.1 x.2).1, .error e) := by
      unfold KL.converged
      split <;> simp_all
    rw [he]
    constructor
    · intro hc; cases hc
    · intro hc
      exfalso
      rw [lastN_all _ hlt] at hc
      have := hc s.values.length (by simp [h1]) (by simp [h1]; omega)
      simp [h1, h2, absLt] at this

end KL

/-- **C36** is false of `GaussianKLTrain` with its default of two times: the first call can return true. -/
theorem C36_train_counterexample :
    (runCalls (fun s (i : Option Unit × Option Unit) => KL.converged (2 : ℚ) 2 (KL.train (fun _ _ => some (.fin 1)) none s i.1 i.2))
      KL.init [(some (), some ())]).2 = [.ok true] := by
  rfl

/-- C36: samples are numbers, the divergence is the square of their difference; convergence in the fifth call. -/
example : (runCalls (fun s (i : Option ℚ) => KL.converged 1 2 (KL.gaussian (fun a b => some (.fin ((a - b) ^ 2))) s i)) KL.init
    [some 0, some 0, none, some (1 / 2), some (1 / 2), some 5]).2 =
    [.error .check, .ok false, .error .check, .ok false, .ok true, .ok false] := by
  decide +kernel

/-! ## C35 -/

open Classical in
/-- The finite points of a history, in order, with the maximum at the time: predicted within tolerance? -/
noncomputable def marks (reltol abstol : K) (h : List (Batch K)) : List Bool :=
  h.flatMap fun b => (((b.newY.zip b.predY).filter fun q => decide (q.1 ≠ .negInf)).map fun q =>
    decide (∃ yn yl, q = (.fin yn, .fin yl) ∧ |yl - yn| < |yn - b.ymax| * reltol + abstol))

/-- Number of `true` at the end of a list. -/
def streak (l : List Bool) : ℕ := (l.reverse.takeWhile id).length

theorem streak_concat (l : List Bool) (b : Bool) : streak (l ++ [b]) = if b then streak l + 1 else 0 := by
  unfold streak
  rw [List.reverse_append]
  cases b <;> simp

open Classical in
theorem correct_iff (reltol abstol ymax : K) (a b : Ext K) : correct reltol abstol ymax a b =
    decide (∃ yn yl, (a, b) = (.fin yn, .fin yl) ∧ |yl - yn| < |yn - ymax| * reltol + abstol) := by
  cases a <;> cases b <;> simp [correct]

open Classical in
theorem countLoop_eq (reltol abstol ymax : K) : ∀ (l : List (Ext K × Ext K)) (pre : List Bool),
    countLoop reltol abstol ymax (streak pre) l = streak (pre ++ ((l.filter fun q => decide (q.1 ≠ .negInf)).map fun q =>
      decide (∃ yn yl, q = (.fin yn, .fin yl) ∧ |yl - yn| < |yn - ymax| * reltol + abstol)))
  | [], pre => by simp [countLoop]
  | (yn, yl) :: l, pre => by
    rw [countLoop]
    have heq : yn.eqv .negInf = true ↔ yn = .negInf := by cases yn <;> simp [Ext.eqv, Ext.le]
    by_cases hn : yn = .negInf
    · rw [if_pos (heq.2 hn), countLoop_eq reltol abstol ymax l pre, List.filter_cons_of_neg (by simp [hn])]
    · rw [if_neg (fun h => hn (heq.1 h)), List.filter_cons_of_pos (by simp [hn]), List.map_cons]
      have hcons : ∀ (b : Bool) (m : List Bool), pre ++ b :: m = (pre ++ [b]) ++ m := by intro b m; simp
      rw [hcons, ← countLoop_eq reltol abstol ymax l, streak_concat, ← correct_iff]
      split_ifs <;> rfl

/-- **C35**: after any history of calls, the last one returns true if and only if the number of finite points, counting back from
the latest one, that were predicted within tolerance without interruption is strictly larger than the required number. -/
theorem C35_correct_counter (reltol abstol nCorrect : K) (h : List (Batch K)) (b : Batch K)
    (hok : ∀ o ∈ (runCalls (Counter.step reltol abstol nCorrect) ⟨0, 0⟩ (h ++ [b])).2, ∃ r, o = .ok r) :
    (runCalls (Counter.step reltol abstol nCorrect) ⟨0, 0⟩ (h ++ [b])).2.getLast? =
      some (.ok (decide (nCorrect < (streak (marks reltol abstol (h ++ [b])) : K)))) := by
  have key : ∀ l : List (Batch K), (∀ o ∈ (runCalls (Counter.step reltol abstol nCorrect) ⟨0, 0⟩ l).2, ∃ r, o = .ok r) →
      (runCalls (Counter.step reltol abstol nCorrect) ⟨0, 0⟩ l).1.nPred = streak (marks reltol abstol l) := by
    intro l
    induction l using List.reverseRecOn with
    | nil => intro _; rfl
    | append_singleton l x ih =>
      intro ho
      rw [runCalls_concat] at ho ⊢
      dsimp only at ho ⊢
      have ih' := ih fun o hm => ho o (List.mem_append_left _ hm)
      obtain ⟨r, hr⟩ := ho _ (List.mem_append_right _ (List.mem_singleton.2 rfl))
      obtain ⟨s, hs⟩ : ∃ s, s = (runCalls (Counter.step reltol abstol nCorrect) ⟨0, 0⟩ l).1 := ⟨_, rfl⟩
      rw [← hs] at hr ih' ⊢
      have hm : marks reltol abstol (l ++ [x]) = marks reltol abstol l ++ marks reltol abstol [x] := by
        unfold marks; rw [List.flatMap_append]
      unfold Counter.step at hr ⊢
      dsimp only at hr ⊢
      split_ifs at hr ⊢ with h1 h2
      · dsimp only
        rw [ih', countLoop_eq, hm]
        simp [marks]
  rw [runCalls_concat] at hok ⊢
  dsimp only at hok ⊢
  rw [List.getLast?_concat]
  have hk := key h fun o hm => hok o (List.mem_append_left _ hm)
  obtain ⟨r, hr⟩ := hok _ (List.mem_append_right _ (List.mem_singleton.2 rfl))
  obtain ⟨s, hs⟩ : ∃ s, s = (runCalls (Counter.step reltol abstol nCorrect) ⟨0, 0⟩ h).1 := ⟨_, rfl⟩
  rw [← hs] at hr hk ⊢
  have hm : marks reltol abstol (h ++ [b]) = marks reltol abstol h ++ marks reltol abstol [b] := by
    unfold marks; rw [List.flatMap_append]
  unfold Counter.step at hr ⊢
  dsimp only at hr ⊢
  split_ifs at hr ⊢ with h1 h2
  · rw [hk, countLoop_eq, hm]
    simp [marks]

/-- C35: which calls fail: the lists have different lengths, or there are no points in the first call. -/
theorem C35_exceptions (reltol abstol nCorrect : K) (s : Counter K) (b : Batch K) :
    (∃ r, (Counter.step reltol abstol nCorrect s b).2 = .ok r) ↔
      b.newY.length = b.predY.length ∧ (b.newY = [] → s.nValues ≠ 0) := by
  unfold Counter.step
  by_cases h1 : b.newY.length = b.predY.length
  · rw [if_neg (not_not.2 h1)]
    dsimp only
    by_cases h2 : b.newY.length = 0 ∧ s.nValues = 0
    · rw [if_pos h2]
      have : b.newY = [] := List.length_eq_zero_iff.1 h2.1
      simp [this, h2.2]
    · rw [if_neg h2]
      simp only [List.length_eq_zero_iff] at h2
      simp [h1]
      tauto
  · rw [if_pos h1]; simp [h1]

/-- C35: two correct, a mispredicted one, an infinite one that is skipped, then three correct ones. -/
example : (runCalls (Counter.step (K := ℚ) (1 / 10) (1 / 10) 2) ⟨0, 0⟩
    [⟨[.fin 0, .fin 1], [.fin 0, .fin 1], 1⟩, ⟨[.fin 0, .negInf, .fin 1], [.fin 5, .fin 0, .fin 1], 1⟩,
     ⟨[.fin 1, .fin 0], [.fin 1, .fin (1 / 10)], 1⟩]).2 = [.ok false, .ok false, .ok true] := by decide +kernel

/-- C36: the last two of four divergences are below the limit. -/
example : (runCalls (fun s (i : Option ℚ) => KL.converged 1 2 (KL.gaussian (fun a b => some (.fin ((a - b) ^ 2))) s i)) KL.init
    ([some 0, some 5, some 5] ++ [some (11 / 2)])).2.getLast? = some (.ok true) := by
  rw [C36_gaussian_kl _ 1 2 (by decide)]
  refine ⟨by decide, fun i h1 h2 => ?_⟩
  have : i = 2 ∨ i = 3 := by simp at h1 h2; omega
  rcases this with rfl | rfl
  · exact ⟨0, by decide +kernel, by norm_num⟩
  · exact ⟨1 / 4, by decide +kernel, by decide +kernel⟩

/-- C36, comparison with the training set, with a floor. -/
example : (runCalls (fun s (i : Option ℚ × Option ℚ) => KL.converged 1 2 (KL.train (fun a b => some (.fin ((a - b) ^ 2))) (some (1 / 1000)) s i.1 i.2)) KL.init
    ([(some 0, some 9), (some 5, some 5)] ++ [(some 5, some (11 / 2))])).2.getLast? = some (.ok true) := by
  rw [C36_train_partial _ _ 1 2 (by decide)]
  intro i h1 h2
  have : i = 1 ∨ i = 2 := by simp at h1 h2; omega
  rcases this with rfl | rfl
  · exact ⟨1 / 1000, by decide +kernel +revert, by decide +kernel⟩
  · exact ⟨1 / 4, by decide +kernel +revert, by decide +kernel⟩

/-- C35: three correct predictions in a row, the last one of them in the second call. -/
example : (runCalls (Counter.step (K := ℚ) (1 / 10) (1 / 10) 2) ⟨0, 0⟩ ([⟨[.fin 0, .fin 1], [.fin 0, .fin 1], 1⟩] ++ [⟨[.negInf, .fin 1], [.fin 5, .fin 1], 1⟩])).2.getLast? =
    some (.ok (decide (2 < (streak (marks (1 / 10 : ℚ) (1 / 10) [⟨[.fin 0, .fin 1], [.fin 0, .fin 1], 1⟩, ⟨[.negInf, .fin 1], [.fin 5, .fin 1], 1⟩]) : ℚ)))) :=
  C35_correct_counter (1 / 10 : ℚ) (1 / 10) 2 [⟨[.fin 0, .fin 1], [.fin 0, .fin 1], 1⟩] ⟨[.negInf, .fin 1], [.fin 5, .fin 1], 1⟩ (by
    have : (runCalls (Counter.step (K := ℚ) (1 / 10) (1 / 10) 2) ⟨0, 0⟩ ([⟨[.fin 0, .fin 1], [.fin 0, .fin 1], 1⟩] ++ [⟨[.negInf, .fin 1], [.fin 5, .fin 1], 1⟩])).2 = [.ok false, .ok true] := by decide +kernel
    rw [this]
    simp)

end GPry.Conv
