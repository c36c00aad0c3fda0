import Verif.Corner
import Verif.CobayaProps

set_option linter.all false

/-!
# Theorems about corner plots (C128)
-/

namespace GPry.Corner

open GPry.Cobaya (Dict Str str put update)

section training

variable {K : Type*} [LinearOrder K] {Y : Type*} {d : ℕ}

/-- One step of the loop that gathers limits. -/
theorem fold_limits (axes : Fin d → Fin d → Option (Lim K × Lim K)) (k : Fin d) : ∀ (qs : List (Fin d × Fin d)) (b : Fin d → Option (Lim K)),
    (qs.foldl (fun b q => match axes q.1 q.2 with
      | none => b
      | some l => Function.update (Function.update b q.1 (some l.1)) q.2 (some l.2)) b) k = b k ∧
      (∀ q ∈ qs, (q.1 = k ∨ q.2 = k) → axes q.1 q.2 = none) ∨
    ∃ q ∈ qs, ∃ l, axes q.1 q.2 = some l ∧ (q.1 = k ∧ (qs.foldl (fun b q => match axes q.1 q.2 with
      | none => b
      | some l => Function.update (Function.update b q.1 (some l.1)) q.2 (some l.2)) b) k = some l.1 ∨
      q.2 = k ∧ (qs.foldl (fun b q => match axes q.1 q.2 with
      | none => b
      | some l => Function.update (Function.update b q.1 (some l.1)) q.2 (some l.2)) b) k = some l.2)
  | [], b => Or.inl ⟨rfl, by simp⟩
  | q :: qs, b => by
    rw [List.foldl_cons]
    rcases fold_limits axes k qs (match axes q.1 q.2 with
      | none => b
      | some l => Function.update (Function.update b q.1 (some l.1)) q.2 (some l.2)) with ⟨h1, h2⟩ | ⟨q', hq', l, hl, h⟩
    · rw [h1]
      cases ha : axes q.1 q.2 with
      | none =>
        left
        refine ⟨rfl, ?_⟩
        intro r hr hk
        rcases List.mem_cons.mp hr with rfl | hr
        · exact ha
        · exact h2 r hr hk
      | some l =>
        by_cases e2 : q.2 = k
        · right
          exact ⟨q, List.mem_cons_self, l, ha, Or.inr ⟨e2, by subst e2; simp⟩⟩
        · by_cases e1 : q.1 = k
          · right
            exact ⟨q, List.mem_cons_self, l, ha, Or.inl ⟨e1, by
              subst e1; simp only; rw [Function.update_of_ne (fun h => e2 h.symm)]; simp⟩⟩
          · left
            refine ⟨by simp only; rw [Function.update_of_ne (fun h => e2 h.symm), Function.update_of_ne (fun h => e1 h.symm)], ?_⟩
            intro r hr hk
            rcases List.mem_cons.mp hr with rfl | hr
            · rcases hk with hk | hk
              · exact absurd hk e1
              · exact absurd hk e2
            · exact h2 r hr hk
    · right
      exact ⟨q', List.mem_cons_of_mem _ hq', l, hl, h⟩

theorem mem_pairs (i j : Fin d) : (i, j) ∈ ((List.finRange d).flatMap fun i => (List.finRange d).map fun j => (i, j)) := by
  simp

theorem limits_spec (axes : Fin d → Fin d → Option (Lim K × Lim K)) (k : Fin d) :
    (limits axes k = none ∧ ∀ j, axes k j = none ∧ axes j k = none) ∨
    ∃ i j l, axes i j = some l ∧ (i = k ∧ limits axes k = some l.1 ∨ j = k ∧ limits axes k = some l.2) := by
  rcases fold_limits axes k ((List.finRange d).flatMap fun i => (List.finRange d).map fun j => (i, j)) (fun _ => none) with ⟨h1, h2⟩ | ⟨q, hq, l, hl, h⟩
  · left
    exact ⟨h1, fun j => ⟨h2 (k, j) (mem_pairs k j) (Or.inl rfl), h2 (j, k) (mem_pairs j k) (Or.inr rfl)⟩⟩
  · right
    exact ⟨q.1, q.2, l, hl, h⟩

theorem reduce_ok (lim : Fin d → Option (Lim K)) (last : List (Fin d → K)) (L : Fin d → Lim K) : ∀ (is : List (Fin d)) (m : Marks K Y d),
    (∀ i ∈ is, lim i = some (L i)) → reduce lim last is m =
      .ok ⟨m.infinite.filter fun x => is.all fun i => within (L i) (x i), m.finite.filter fun q => is.all fun i => within (L i) (q.1 i),
        match is.getLast? with | none => m.last | some i => last.filter fun x => within (L i) (x i)⟩
  | [], m, h => by simp [reduce]
  | i :: is, m, h => by
    rw [reduce, h i List.mem_cons_self]
    simp only
    rw [reduce_ok lim last L is _ fun j hj => h j (List.mem_cons_of_mem _ hj)]
    simp only [List.filter_filter, List.all_cons]
    congr 2
    · refine List.filter_congr fun x _ => ?_
      rw [Bool.and_comm]
    · refine List.filter_congr fun x _ => ?_
      rw [Bool.and_comm]
    · cases is with
      | nil => simp
      | cons j js =>
        obtain ⟨r, hr⟩ := Option.ne_none_iff_exists'.mp (show (j :: js).getLast? ≠ none by simp)
        rw [List.getLast?_cons_cons, hr]

theorem reduce_error (lim : Fin d → Option (Lim K)) (last : List (Fin d → K)) : ∀ (is : List (Fin d)) (m : Marks K Y d),
    (∃ i ∈ is, lim i = none) → reduce lim last is m = .error .typeError
  | [], m, h => by simp at h
  | i :: is, m, h => by
    rw [reduce]
    cases hl : lim i with
    | none => rfl
    | some l =>
      simp only
      refine reduce_error lim last is _ ?_
      obtain ⟨j, hj, hn⟩ := h
      rcases List.mem_cons.mp hj with rfl | hj
      · rw [hl] at hn; cases hn
      · exact ⟨j, hj, hn⟩

/-- **C128**, the training points. If every parameter is in some panel and no axis is inverted, all training points are drawn, whatever the ranges
of the axes: none is left out for being outside of them. -/
theorem C128_all (axes : Fin d → Fin d → Option (Lim K × Lim K)) (finite : List ((Fin d → K) × Y)) (infinite last : List (Fin d → K)) (hd : 0 < d)
    (hax : ∀ k, ∃ j, axes k j ≠ none ∨ axes j k ≠ none) (hup : ∀ i j l, axes i j = some l → l.1.1 < l.1.2 ∧ l.2.1 < l.2.2)
    (hne : finite ≠ [] ∨ infinite ≠ []) :
    addTraining axes finite infinite last = .ok (some ⟨infinite, finite, last⟩) := by
  have hL : ∀ k, ∃ l : Lim K, limits axes k = some l ∧ l.1 < l.2 := by
    intro k
    rcases limits_spec axes k with ⟨_, h⟩ | ⟨i, j, l, hl, h⟩
    · obtain ⟨j, hj⟩ := hax k
      rcases hj with hj | hj
      · exact absurd (h j).1 hj
      · exact absurd (h j).2 hj
    · rcases h with ⟨_, h⟩ | ⟨_, h⟩
      · exact ⟨_, h, (hup i j l hl).1⟩
      · exact ⟨_, h, (hup i j l hl).2⟩
  choose L hL1 hL2 using hL
  have hw : ∀ (k : Fin d) (x : K), within (L k) x = true := by
    intro k x
    simp only [within, Bool.or_eq_true, decide_eq_true_eq]
    rcases lt_or_ge (L k).1 x with h | h
    · exact Or.inl h
    · exact Or.inr (lt_of_le_of_lt h (hL2 k))
  rw [addTraining, reduce_ok (limits axes) last L _ _ fun i _ => hL1 i]
  have hr : (List.finRange d).getLast? ≠ none := by
    simp only [ne_eq, List.getLast?_eq_none_iff]
    intro h
    have := congrArg List.length h
    simp at this
    omega
  obtain ⟨i, hi⟩ := Option.ne_none_iff_exists'.mp hr
  have e : ∀ x : Fin d → K, ((List.finRange d).all fun i => within (L i) (x i)) = true := by
    intro x
    rw [List.all_eq_true]
    exact fun i _ => hw i _
  simp only [hi, e]
  simp only [hw, List.filter_true]
  rw [if_neg]
  rw [Bool.and_eq_true, List.isEmpty_iff, List.isEmpty_iff]
  rintro ⟨h1, h2⟩
  rcases hne with h | h
  · exact h h1
  · exact h h2

/-- **C128**, for any axes: what is drawn is part of the training set, in its order, with the values in it; a point is drawn if and only if, for each
parameter, it is above the first end of its axis or below the second. Of the last points, only the axis of the last parameter matters. -/
theorem C128_exact (axes : Fin d → Fin d → Option (Lim K × Lim K)) (finite : List ((Fin d → K) × Y)) (infinite last : List (Fin d → K))
    (m : Marks K Y d) (h : addTraining axes finite infinite last = .ok (some m)) :
    ∃ L : Fin d → Lim K, (∀ k, ∃ i j l, axes i j = some l ∧ (i = k ∧ L k = l.1 ∨ j = k ∧ L k = l.2)) ∧
      m.finite = finite.filter (fun q => decide (∀ k, (L k).1 < q.1 k ∨ q.1 k < (L k).2)) ∧
      m.infinite = infinite.filter (fun x => decide (∀ k, (L k).1 < x k ∨ x k < (L k).2)) ∧
      ∀ k : Fin d, (k : ℕ) + 1 = d → m.last = last.filter (fun x => decide ((L k).1 < x k ∨ x k < (L k).2)) := by
  by_cases hn : ∃ i, limits axes i = none
  · obtain ⟨i, hi⟩ := hn
    rw [addTraining, reduce_error _ _ _ _ ⟨i, List.mem_finRange i, hi⟩] at h
    cases h
  · push Not at hn
    have : ∀ k, ∃ l, limits axes k = some l := fun k => Option.ne_none_iff_exists'.mp (hn k)
    choose L hL using this
    refine ⟨L, ?_, ?_⟩
    · intro k
      rcases limits_spec axes k with ⟨h, _⟩ | ⟨i, j, l, hl, h⟩
      · exact absurd h (hn k)
      · refine ⟨i, j, l, hl, ?_⟩
        rw [hL k] at h
        simpa using h
    · rw [addTraining, reduce_ok (limits axes) last L _ _ fun i _ => hL i] at h
      simp only at h
      split at h
      · cases h
      · injection h with h
        injection h with h
        subst h
        refine ⟨?_, ?_, ?_⟩
        · refine List.filter_congr fun q _ => ?_
          rw [Bool.eq_iff_iff]
          simp [within]
        · refine List.filter_congr fun q _ => ?_
          rw [Bool.eq_iff_iff]
          simp [within]
        · intro k hk
          have hg : (List.finRange d).getLast? = some k := by
            rw [List.getLast?_eq_getElem?]
            have : (List.finRange d).length - 1 = (k : ℕ) := by simp; omega
            rw [this, List.getElem?_eq_getElem (by simp)]
            simp
          simp only [hg]
          refine List.filter_congr fun q _ => ?_
          rw [Bool.eq_iff_iff]
          simp [within]

/-- **C128**, a parameter without panel: `TypeError`. -/
theorem C128_missing (axes : Fin d → Fin d → Option (Lim K × Lim K)) (finite : List ((Fin d → K) × Y)) (infinite last : List (Fin d → K)) (k : Fin d)
    (hk : ∀ j, axes k j = none ∧ axes j k = none) : addTraining axes finite infinite last = .error .typeError := by
  have : limits axes k = none := by
    rcases limits_spec axes k with ⟨h, _⟩ | ⟨i, j, l, hl, h⟩
    · exact h
    · rcases h with ⟨rfl, _⟩ | ⟨rfl, _⟩
      · rw [(hk j).1] at hl; cases hl
      · rw [(hk i).2] at hl; cases hl
  rw [addTraining, reduce_error _ _ _ _ ⟨k, List.mem_finRange k, this⟩]

/-- **C128**, false of the code: "samples outside the axes ranges are not plotted". -/
theorem C128_range_counterexample :
    ∃ (axes : Fin 2 → Fin 2 → Option (Lim ℚ × Lim ℚ)) (finite : List ((Fin 2 → ℚ) × ℚ)) (m : Marks ℚ ℚ 2),
      (∀ i j l, axes i j = some l → l = ((0, 1), (0, 1))) ∧ addTraining axes finite [] [] = .ok (some m) ∧ (∃ q ∈ m.finite, ∀ k, 1 < q.1 k) := by
  refine ⟨fun _ _ => some ((0, 1), (0, 1)), [(fun _ => 7, -3)], ⟨[], [(fun _ => 7, -3)], []⟩, ?_, ?_, ?_⟩
  · intro i j l h; simpa using h.symm
  · refine C128_all _ _ _ _ (by norm_num) (fun k => ⟨k, Or.inl (by simp)⟩) ?_ (Or.inl (by simp))
    intro i j l h
    simp only [Option.some.injEq] at h
    subst h
    norm_num
  · exact ⟨_, List.mem_singleton.mpr rfl, fun k => by norm_num⟩

/-- **C128**, false of the code: with an inverted axis exactly the points in its range are left out. -/
theorem C128_inverted_counterexample :
    addTraining (d := 2) (fun _ _ => some (((1 : ℚ), 0), (1, 0))) [((fun _ => 1 / 2), (0 : ℚ))] [] [] = .ok none := by
  have hL : ∀ k : Fin 2, limits (fun _ _ : Fin 2 => some (((1 : ℚ), (0 : ℚ)), ((1 : ℚ), (0 : ℚ)))) k = some (1, 0) := by
    intro k
    rcases limits_spec (fun _ _ : Fin 2 => some (((1 : ℚ), (0 : ℚ)), ((1 : ℚ), (0 : ℚ)))) k with ⟨_, h⟩ | ⟨i, j, l, hl, h⟩
    · exact absurd (h k).1 (by simp)
    · simp only [Option.some.injEq] at hl
      subst hl
      rcases h with h | h
      · exact h.2
      · exact h.2
  rw [addTraining, reduce_ok _ _ (fun _ => (1, 0)) _ _ fun i _ => hL i]
  have : (List.finRange 2).all (fun i => within ((1 : ℚ), (0 : ℚ)) (1 / 2)) = false := by
    simp [within, List.finRange_succ]
    norm_num
  simp only [List.filter_cons, this, List.filter_nil, Bool.false_eq_true, if_false]
  rfl

/-- The hypotheses of `C128_all` hold of a plot with three panels for two parameters. -/
example : addTraining (d := 2) (fun i j => if j ≤ i then some (((-1 : ℚ), 1), (-2, 2)) else none) [((fun _ => 9), (5 : ℚ)), ((fun _ => 0), 7)] [fun _ => -50] [fun _ => 9] =
    .ok (some ⟨[fun _ => -50], [((fun _ => 9), 5), ((fun _ => 0), 7)], [fun _ => 9]⟩) := by
  refine C128_all _ _ _ _ (by norm_num) (fun k => ⟨k, Or.inl (by simp)⟩) ?_ (Or.inl (by simp))
  intro i j l h
  by_cases hij : j ≤ i
  · rw [if_pos hij] at h
    simp only [Option.some.injEq] at h
    subst h
    norm_num
  · rw [if_neg hij] at h; cases h

example : addTraining (d := 2) (fun i j => if i = 0 ∧ j = 0 then some (((-1 : ℚ), 1), (-2, 2)) else none) [((fun _ => 9), (5 : ℚ))] [] [] = .error .typeError :=
  C128_missing _ _ _ _ 1 fun j => by simp

end training

section options

variable {B : Type}

theorem get_of_mem {κ V : Type*} [DecidableEq κ] (d : Dict κ V) (k : κ) (v : V) (h : (k, v) ∈ d) (hnd : (d.map Prod.fst).Nodup) : Cobaya.get d k = some v := by
  induction d with
  | nil => cases h
  | cons q d ih =>
    rw [Cobaya.get_cons]
    rw [List.map_cons, List.nodup_cons] at hnd
    rcases List.mem_cons.mp h with rfl | h
    · simp
    · rw [if_neg]
      · exact ih h hnd.2
      · rintro rfl
        exact hnd.1 (List.mem_map.mpr ⟨_, h, rfl⟩)

theorem corner_ok (samples : Dict Str Names) (params : Option (List Str)) (b : BoundsArg B) (f : FilledArg) (t : TrainArg) (p : Plot B)
    (h : corner samples params b f t = .ok p) : ∃ tp ps lim, trainParams samples t = .ok tp ∧ shownParams samples params = .ok ps ∧
      paramLimits ps b = .ok lim ∧ p = ⟨samples.map Prod.fst, ps, lim, filledList samples f, tp⟩ := by
  unfold corner at h
  cases h1 : trainParams samples t with
  | error e => rw [h1] at h; cases h
  | ok tp =>
    cases h2 : shownParams samples params with
    | error e => rw [h1, h2] at h; cases h
    | ok ps =>
      cases h3 : paramLimits ps b with
      | error e => rw [h1, h2] at h; simp only [bind, Except.bind] at h; rw [h3] at h; cases h
      | ok lim =>
        rw [h1, h2] at h
        simp only [bind, Except.bind] at h
        rw [h3] at h
        injection h with h
        exact ⟨tp, ps, lim, rfl, rfl, h3, h.symm⟩

/-- **C128**, filled contours: the values given, by label or by position, and `True` for those missing; one for each sample, in the order of the
labels. -/
theorem C128_filled (samples : Dict Str Names) (params : Option (List Str)) (b : BoundsArg B) (f : FilledArg) (t : TrainArg) (p : Plot B)
    (h : corner samples params b f t = .ok p) (hnd : (samples.map Prod.fst).Nodup) :
    p.labels = samples.map Prod.fst ∧ p.filled.length = samples.length ∧
    ∀ (i : ℕ) (hi : i < samples.length), p.filled[i]? = some (match f with
      | .none => true
      | .map m => (Cobaya.get m samples[i].1).getD true
      | .seq l => (l[i]?).getD true) := by
  obtain ⟨tp, ps, lim, _, _, _, rfl⟩ := corner_ok samples params b f t p h
  refine ⟨rfl, by simp [filledList], ?_⟩
  intro i hi
  simp only [filledList, List.getElem?_map, List.getElem?_eq_getElem hi, Option.map_some]
  cases f with
  | none => simp [filledMap, Cobaya.get]
  | map m => rfl
  | seq l =>
    simp only [filledMap]
    have hk : (samples.zipIdx.map fun q => (q.1.1, (l[q.2]?).getD true)).map Prod.fst = samples.map Prod.fst := by
      rw [List.map_map]
      have : (Prod.fst ∘ fun q : (Str × Names) × ℕ => (q.1.1, (l[q.2]?).getD true)) = Prod.fst ∘ Prod.fst := rfl
      rw [this, ← List.map_map, List.zipIdx_map_fst]
    rw [Cobaya.update_nil _ (by rw [hk]; exact hnd)]
    have hg : Cobaya.get (samples.zipIdx.map fun q => (q.1.1, (l[q.2]?).getD true)) samples[i].1 = some ((l[i]?).getD true) := by
      have hmem : (samples[i].1, (l[i]?).getD true) ∈ samples.zipIdx.map fun q => (q.1.1, (l[q.2]?).getD true) :=
        List.mem_map.mpr ⟨(samples[i], i), by rw [List.mem_zipIdx_iff_getElem?]; simp [List.getElem?_eq_getElem hi], rfl⟩
      exact get_of_mem _ _ _ hmem (by rw [hk]; exact hnd)
    rw [hg]
    rfl

/-- **C128**, the parameters shown: those asked for that the last sample has, in the order in which they are asked for. -/
theorem C128_params (samples : Dict Str Names) (ps : List Str) (b : BoundsArg B) (f : FilledArg) (t : TrainArg) (p : Plot B)
    (h : corner samples (some ps) b f t = .ok p) :
    ∃ l n qs, samples.getLast? = some (l, n) ∧ p.params = some qs ∧ qs.Sublist ps ∧ (∀ q, q ∈ qs ↔ q ∈ ps ∧ q ∈ n ∧ q.getLast? ≠ some '*') ∧
      (ps.Nodup → qs.Nodup) := by
  obtain ⟨tp, qs, lim, _, h2, _, rfl⟩ := corner_ok samples _ b f t p h
  rw [shownParams] at h2
  cases hl : samples.getLast? with
  | none => rw [hl] at h2; cases h2
  | some q =>
    rw [hl] at h2
    injection h2 with h2
    subst h2
    refine ⟨q.1, q.2, _, rfl, rfl, List.filter_sublist, ?_, fun hn => hn.filter _⟩
    intro x
    rw [List.mem_filter, decide_eq_true_eq, running, List.mem_filter, decide_eq_true_eq]

/-- **C128**, limits given as a list: those of each parameter shown, in the order of the parameters, if all those asked for are in the last sample. -/
theorem C128_bounds_partial (samples : Dict Str Names) (ps : List Str) (l : List B) (f : FilledArg) (hnd : ps.Nodup) (q : Str × Names)
    (hq : samples.getLast? = some q) (hall : ∀ p ∈ ps, p ∈ q.2 ∧ p.getLast? ≠ some '*') (hlen : l.length = ps.length) :
    ∃ p, corner samples (some ps) (.seq l) f .none = .ok p ∧ p.params = some ps ∧
      ∀ (i : ℕ) (hi : i < ps.length), Cobaya.get p.limits ps[i] = some (some (l[i]'(by omega))) := by
  have hs : shownParams samples (some ps) = .ok (some ps) := by
    rw [shownParams, hq]
    simp only
    rw [List.filter_eq_self.mpr]
    intro p hp
    rw [decide_eq_true_eq, running, List.mem_filter, decide_eq_true_eq]
    exact hall p hp
  have hl : paramLimits (some ps) (.seq l) = .ok (update [] (ps.zip (l.map some))) := by
    rw [paramLimits, if_neg (by simpa using hlen)]
  refine ⟨⟨samples.map Prod.fst, some ps, update [] (ps.zip (l.map some)), filledList samples f, none⟩, ?_, rfl, ?_⟩
  · unfold corner
    rw [hs]
    simp only [bind, Except.bind, trainParams]
    rw [hl]
    rfl
  · intro i hi
    have hk : (ps.zip (l.map some)).map Prod.fst = ps := by
      rw [List.map_fst_zip]
      simp [hlen]
    simp only
    rw [Cobaya.update_nil _ (by rw [hk]; exact hnd)]
    refine get_of_mem _ _ _ ?_ (by rw [hk]; exact hnd)
    rw [List.mem_iff_getElem]
    exact ⟨i, by simp [hlen, hi], by simp⟩

/-- **C128**, false of the code: limits in the order of `params` are refused if one of these is not in the last sample, for the number of limits is
compared with that of the parameters left. -/
theorem C128_bounds_counterexample :
    corner [(str "a", [str "x", str "y"]), (str "b", [str "x"])] (some [str "x", str "y"]) (.seq [((0 : ℚ), (1 : ℚ)), (2, 3)]) .none .none = .error .valueError := by
  decide +kernel

/-- **C128**, limits without parameters: `TypeError`, also for a list. -/
theorem C128_bounds_no_params (samples : Dict Str Names) (b : BoundsArg B) (f : FilledArg) (hb : b ≠ .none) :
    corner samples none b f .none = .error .typeError := by
  unfold corner
  simp only [trainParams, shownParams, bind, Except.bind]
  cases b with
  | none => exact absurd rfl hb
  | map m => rfl
  | seq l => rfl

/-- **C128**, the parameters assumed for the surrogate: those of the first sample, those of the sample with the label given, or those given. -/
theorem C128_training (samples : Dict Str Names) (params : Option (List Str)) (b : BoundsArg B) (f : FilledArg) (t : TrainArg) (p : Plot B)
    (h : corner samples params b f t = .ok p) :
    match t with
    | .none => p.training = none
    | .gpr => ∃ q, samples.head? = some q ∧ p.training = some (q.2.filter fun s => decide (s.getLast? ≠ some '*'))
    | .map ks => (∃ l, ks.head? = some (.tuple l) ∧ p.training = some l) ∨
        ∃ s n, ks.head? = some (.label s) ∧ Cobaya.get samples s = some n ∧ p.training = some (n.filter fun s => decide (s.getLast? ≠ some '*'))
    | .other => False := by
  obtain ⟨tp, qs, lim, h1, _, _, rfl⟩ := corner_ok samples _ b f t p h
  cases t with
  | none => rw [trainParams] at h1; injection h1 with h1; exact h1.symm
  | gpr =>
    cases samples with
    | nil => cases h1
    | cons q s => rw [trainParams] at h1; injection h1 with h1; exact ⟨q, rfl, h1.symm⟩
  | map ks =>
    cases ks with
    | nil => cases h1
    | cons k ks =>
      cases k with
      | tuple l => rw [trainParams] at h1; injection h1 with h1; exact Or.inl ⟨l, rfl, h1.symm⟩
      | label s =>
        rw [trainParams] at h1
        cases hg : Cobaya.get samples s with
        | none => rw [hg] at h1; cases h1
        | some n => rw [hg] at h1; injection h1 with h1; exact Or.inr ⟨s, n, rfl, hg, h1.symm⟩
  | other => cases h1

/-- **C128**, a label that is not that of a sample: `ValueError`. -/
theorem C128_training_label (samples : Dict Str Names) (params : Option (List Str)) (b : BoundsArg B) (f : FilledArg) (s : Str) (ks : List Key)
    (hs : s ∉ samples.map Prod.fst) : corner samples params b f (.map (.label s :: ks)) = .error .valueError := by
  unfold corner
  rw [trainParams, (Cobaya.get_none samples s).mpr hs]
  rfl

end options

/-! ## The plot of the samples of the surrogate -/

section mc

variable {B : Type}

theorem corner_run (samples : Dict Str Names) (ps : List Str) (t : TrainArg) (tp : Option (List Str)) (q : Str × Names)
    (ht : trainParams samples t = .ok tp) (hq : samples.getLast? = some q) :
    corner (B := B) samples (some ps) .none .none t =
      .ok ⟨samples.map Prod.fst, some (ps.filter fun p => decide (p ∈ running q.2)), [], samples.map fun _ => true, tp⟩ := by
  unfold corner
  rw [ht]
  simp only [bind, Except.bind]
  rw [shownParams, hq]
  simp only [paramLimits]
  congr 1

/-- **C128**, the samples of the surrogate: with no other samples the plot has the fiducial sample, if there is one, and that of the surrogate, which
is the one given or else the last one generated; it shows the sampled parameters; and the training points are placed by the names of the latter. -/
theorem C128_surrogate (params : List Str) (label : Str) (fid given last : Option Names) (n : Names) (der : List Str)
    (hlab : label ≠ str "Fiducial") (hn : given.or last = some n) (hnames : n = params ++ der) (hp : ∀ p ∈ params, p.getLast? ≠ some '*')
    (hder : ∀ s ∈ der, s.getLast? = some '*') (hlp : nameLogp ∉ params) :
    plotMc (B := B) params label fid given last .none true =
      .ok ⟨(if fid.isSome then [str "Fiducial"] else []) ++ [label], some params, [], (if fid.isSome then [true] else []) ++ [true], some params⟩ := by
  have hrun : running n = params := by
    rw [running, hnames, List.filter_append, List.filter_eq_self.mpr (fun p h => by simpa using hp p h),
      List.filter_eq_nil_iff.mpr (fun p h => by simpa using hder p h), List.append_nil]
  have hs : mcSamples label fid given last .none = .ok ((match fid with | none => [] | some m => [(str "Fiducial", m)]) ++ [(label, n)]) := by
    unfold mcSamples
    rw [hn]
    simp only [update, List.foldl_nil]
    congr 1
    cases fid with
    | none => rfl
    | some m => simp [put, hlab]
  have hg : Cobaya.get ((match fid with | none => [] | some m => [(str "Fiducial", m)]) ++ [(label, n)]) label = some n := by
    rw [Cobaya.get_append]
    cases fid with
    | none => simp [Cobaya.get]
    | some m => simp [Cobaya.get_cons, Cobaya.get_nil, hlab.symm]
  unfold plotMc
  rw [hs]
  simp only [bind, Except.bind, if_true]
  rw [corner_run _ _ _ (some params) (label, n) (by rw [trainParams, hg, ← hrun]) (by simp)]
  have hf : (params ++ [nameLogp]).filter (fun p => decide (p ∈ running n)) = params := by
    rw [hrun, List.filter_append, List.filter_eq_self.mpr (fun p h => by simpa using h)]
    simp [hlp]
  simp only [hf]
  congr 1
  cases fid <;> simp

/-- **C128**, nothing generated and nothing given: `ValueError`. -/
theorem C128_no_samples (params : List Str) (label : Str) (fid : Option Names) (add : AddArg) (training : Bool) :
    plotMc (B := B) params label fid none none add training = .error .valueError := by
  cases training <;> rfl

/-- **C128**, more samples: the one of the surrogate comes after the fiducial one and before the additional ones, except that an additional one of the
same label takes its place. -/
theorem C128_additional (label : Str) (fid given last : Option Names) (m : Dict Str Names) (n : Names) (hn : given.or last = some n)
    (hnd : (m.map Prod.fst).Nodup) : ∃ s, mcSamples label fid given last (.map m) = .ok s ∧
      (∀ k, Cobaya.get s k = (Cobaya.get m k).or (if k = label then some n else if k = str "Fiducial" then fid else none)) := by
  refine ⟨_, by unfold mcSamples; rw [hn], ?_⟩
  intro k
  simp only
  rw [Cobaya.get_update _ _ _ hnd, Cobaya.get_put]
  congr 1
  by_cases h : label = k
  · simp [h]
  · rw [if_neg h, if_neg (fun e => h e.symm)]
    cases fid with
    | none => simp [Cobaya.get]
    | some f => simp only [Cobaya.get_cons, Cobaya.get_nil, eq_comm]

/-- **C128**, false of the code: the log-posterior is among the parameters asked for (run.py:1848-1849), but never shown: the column has a name with a
star. Neither is what the last additional sample lacks. -/
theorem C128_logpost_counterexample :
    plotMc (B := ℚ) [str "x", str "y"] (str "GP") none none (some [str "x", str "y", str "logpost*"]) .none false =
      .ok ⟨[str "GP"], some [str "x", str "y"], [], [true], none⟩ ∧
    plotMc (B := ℚ) [str "x", str "y"] (str "GP") none none (some [str "x", str "y", str "logpost*"]) (.one [str "y"]) true =
      .ok ⟨[str "GP", str "Add. samples"], some [str "y"], [], [true, true], some [str "x", str "y"]⟩ := by
  constructor <;> decide +kernel

/-- The hypotheses of `C128_surrogate` hold of the sample of the surrogate. -/
example : plotMc (B := ℚ) [str "x", str "y"] (str "GP") (some [str "y"]) none (some [str "x", str "y", str "logpost*"]) .none true =
    .ok ⟨[str "Fiducial", str "GP"], some [str "x", str "y"], [], [true, true], some [str "x", str "y"]⟩ :=
  C128_surrogate _ _ _ _ _ _ [str "logpost*"] (by decide) rfl rfl (by decide) (by decide) (by decide)

example : ∃ p, corner [(str "a", [str "x", str "y", str "c*"])] (some [str "y", str "x"]) (.seq [(5 : ℚ), 6]) (.seq [false]) .none = .ok p ∧
    p.params = some [str "y", str "x"] ∧ p.filled = [false] ∧ Cobaya.get p.limits (str "x") = some (some 6) :=
  ⟨⟨[str "a"], some [str "y", str "x"], [(str "y", some 5), (str "x", some 6)], [false], none⟩, by decide +kernel, rfl, rfl, by decide +kernel⟩

end mc

/-! ## Each theorem applied to concrete data -/

def exAxes (i j : Fin 2) : Option (Lim ℚ × Lim ℚ) := if j ≤ i then some ((-1, 1), (-2, 2)) else none

/-- Limits of the axes, every mark within them. -/
example : ∃ m, addTraining (d := 2) exAxes [((fun _ => 0), (5 : ℚ))] [fun _ => 1 / 2] [fun _ => 0] = .ok (some m) ∧
    ∃ L : Fin 2 → Lim ℚ, m.finite = [((fun _ => 0), (5 : ℚ))].filter (fun q => decide (∀ k, (L k).1 < q.1 k ∨ q.1 k < (L k).2)) := by
  obtain ⟨m, h⟩ : ∃ m, addTraining (d := 2) exAxes [((fun _ => 0), (5 : ℚ))] [fun _ => 1 / 2] [fun _ => 0] = .ok (some m) :=
    ⟨_, C128_all _ _ _ _ (by norm_num) (fun k => ⟨k, Or.inl (by simp [exAxes])⟩) (by
      intro i j l h
      unfold exAxes at h
      split_ifs at h
      simp only [Option.some.injEq] at h
      subst h
      norm_num) (Or.inl (by simp))⟩
  obtain ⟨L, -, h2, -⟩ := C128_exact _ _ _ _ m h
  exact ⟨m, h, L, h2⟩

/-- A chain with two parameters and a derived one. -/
def exSamples : Dict Str Names := [(str "a", [str "x", str "y", str "c*"]), (str "b", [str "y", str "x"])]

def exPlot : Plot ℚ := ⟨[str "a", str "b"], some [str "y", str "x"], [(str "y", some 5), (str "x", some 6)], [true, false], none⟩

theorem exPlot_eq : corner exSamples (some [str "y", str "x"]) (.seq [(5 : ℚ), 6]) (.map [(str "b", false)]) .none = .ok exPlot := by decide +kernel

example : exPlot.filled[1]? = some ((Cobaya.get [(str "b", false)] (str "b")).getD true) :=
  (C128_filled exSamples _ _ _ _ _ exPlot_eq (by decide)).2.2 1 (by decide)

example : ∃ qs, exPlot.params = some qs ∧ qs.Nodup := by
  obtain ⟨l, n, qs, -, h, -, -, h'⟩ := C128_params _ _ _ _ _ _ exPlot_eq
  exact ⟨qs, h, h' (by decide)⟩

example : ∃ p, corner exSamples (some [str "y", str "x"]) (.seq [(5 : ℚ), 6]) .none .none = .ok p ∧ Cobaya.get p.limits (str "x") = some (some 6) :=
  let ⟨p, h, _, H⟩ := C128_bounds_partial exSamples [str "y", str "x"] [(5 : ℚ), 6] .none (by decide) (str "b", [str "y", str "x"]) rfl (by decide) rfl
  ⟨p, h, H 1 (by decide)⟩

example : corner exSamples none (.seq [(5 : ℚ), 6]) .none .none = .error .typeError := C128_bounds_no_params _ _ _ (by simp)

example : exPlot.training = none := C128_training _ _ _ _ _ _ exPlot_eq

example : corner (B := ℚ) exSamples none .none .none (.map [.label (str "zz")]) = .error .valueError :=
  C128_training_label _ _ _ _ _ _ (by decide)

example : plotMc (B := ℚ) [str "x"] (str "GP") none none none .none true = .error .valueError := C128_no_samples _ _ _ _ _

example : ∃ s, mcSamples (str "GP") (some [str "y"]) (some [str "x"]) none (.map [(str "chain", [str "x", str "y"])]) = .ok s ∧
    Cobaya.get s (str "chain") = some [str "x", str "y"] ∧ Cobaya.get s (str "Fiducial") = some [str "y"] ∧ Cobaya.get s (str "GP") = some [str "x"] :=
  let ⟨s, h, H⟩ := C128_additional (str "GP") (some [str "y"]) (some [str "x"]) none [(str "chain", [str "x", str "y"])] [str "x"] rfl (by decide)
  ⟨s, h, H _, H _, H _⟩

end GPry.Corner
