import Verif.McSamp
import Verif.CobayaProps
import Verif.ToolsProps
import Mathlib.Data.List.TakeWhile

set_option linter.all false

/-! # Nested samplers, MC samples, random generators: C92–C98 -/

namespace GPry.McSamp

open GPry Cobaya

/-! ## C92 -/

theorem mem_rmtree (fs : List File) (d : List Str) (f : File) : f ∈ rmtree fs d ↔ f ∈ fs ∧ ¬ d <+: f.dir := by
  unfold rmtree
  rw [List.mem_filter, Bool.not_eq_true', ← Bool.not_eq_true, List.isPrefixOf_iff_prefix]

theorem mem_polyDelete (fs : List File) (base : List Str) (root : Str) (hr : root ≠ []) (f : File) :
    f ∈ polyDelete fs base root ↔ f ∈ fs ∧ ¬ (f.dir = base ∧ (root ++ ['.'] <+: f.name ∨ root ++ ['_'] <+: f.name)) ∧
      ¬ (f.dir = base ++ [str "clusters"] ∧ root ++ ['_'] <+: f.name) := by
  unfold polyDelete globbed
  rw [if_neg hr, List.mem_filter]
  rw [Bool.not_eq_true', ← Bool.not_eq_true]
  simp only [Bool.or_eq_true, Bool.and_eq_true, decide_eq_true_eq, List.isPrefixOf_iff_prefix, not_or]

/-- Files used in the examples. -/
def exFiles : List File :=
  [⟨[str "f"], str "a.txt"⟩, ⟨[str "f"], str "b.txt"⟩, ⟨[str "f", str "clusters"], str "a_1.txt"⟩, ⟨[str "g"], str "a.txt"⟩]

/-- **C92** (partial: runs of other prefixes only if neither of the two prefixes starts with the other; names without special characters): PolyChord's output
with prefix `root` is deleted, and no other files: neither in other folders, nor of other runs in the same folder. -/
theorem C92_polychord_partial (loc : Str → List Str) (dflt folder root : Str) (last : List Str × Str) (fs : List File) (hp : '/' ∉ root) (hr : root ≠ [])
    (hf : folder ≠ []) (hl : folder.getLast? ≠ some '/') :
    let out := deleteOutput loc dflt .polychord true last (some (folder ++ '/' :: root)) fs
    (∀ f, f ∈ out → f ∈ fs) ∧
    (∀ ext, ⟨loc folder, root ++ '.' :: ext⟩ ∉ out ∧ ⟨loc folder, root ++ '_' :: ext⟩ ∉ out ∧ ⟨loc folder ++ [str "clusters"], root ++ '_' :: ext⟩ ∉ out) ∧
    (∀ f ∈ fs, f.dir ≠ loc folder → f.dir ≠ loc folder ++ [str "clusters"] → f ∈ out) ∧
    (∀ f ∈ fs, ∀ root', root' <+: f.name → ¬ root <+: root' → ¬ root' <+: root → f ∈ out) := by
  intro out
  have hout : out = polyDelete fs (loc folder) root := by
    show deleteOutput _ _ _ _ _ _ _ = _
    simp only [deleteOutput, Bool.not_true, Bool.false_eq_true, if_false]
    rw [(Tools.C57_split_partial id dflt hp hf hl).1, if_neg hr]
    rfl
  rw [hout]
  refine ⟨fun f h => ((mem_polyDelete fs _ root hr f).1 h).1, fun ext => ⟨?_, ?_, ?_⟩, fun f h h1 h2 => ?_, fun f h root' h1 h2 h3 => ?_⟩
  · rw [mem_polyDelete _ _ _ hr]
    exact fun h => h.2.1 ⟨rfl, .inl ⟨ext, by simp⟩⟩
  · rw [mem_polyDelete _ _ _ hr]
    exact fun h => h.2.1 ⟨rfl, .inr ⟨ext, by simp⟩⟩
  · rw [mem_polyDelete _ _ _ hr]
    exact fun h => h.2.2 ⟨rfl, ⟨ext, by simp⟩⟩
  · rw [mem_polyDelete _ _ _ hr]
    exact ⟨h, fun h' => h1 h'.1, fun h' => h2 h'.1⟩
  · have key : ∀ c, ¬ root ++ [c] <+: f.name := by
      intro c hc
      have h4 : root <+: f.name := (List.prefix_append root [c]).trans hc
      rcases List.prefix_or_prefix_of_prefix h4 h1 with h | h
      · exact h2 h
      · exact h3 h
    rw [mem_polyDelete _ _ _ hr]
    exact ⟨h, fun h' => h'.2.elim (key _) (key _), fun h' => key _ h'.2⟩

example : ⟨[str "g"], str "a.txt"⟩ ∈ deleteOutput (fun s => [s]) (str "ns_samples") .polychord true ([], []) (some (str "f/a")) exFiles ∧
    ⟨[str "f"], str "b.txt"⟩ ∈ deleteOutput (fun s => [s]) (str "ns_samples") .polychord true ([], []) (some (str "f/a")) exFiles ∧
    ⟨[str "f"], str "a.txt"⟩ ∉ deleteOutput (fun s => [s]) (str "ns_samples") .polychord true ([], []) (some (str "f/a")) exFiles := by
  obtain ⟨-, h1, h2, h3⟩ := C92_polychord_partial (fun s => [s]) (str "ns_samples") (str "f") (str "a") ([], []) exFiles
    (by decide) (by decide) (by decide) (by decide)
  exact ⟨h2 _ (by decide) (by decide) (by decide), h3 _ (by decide) (str "b") (by decide) (by decide) (by decide), (h1 (str "txt")).1⟩

/-- **C92** is false for PolyChord: deleting the run `a` deletes also a file of the run `a_b`. -/
theorem C92_polychord_counterexample (loc : Str → List Str) (last : List Str × Str) :
    deleteOutput loc (str "ns_samples") .polychord true last (some (str "f/a")) [⟨loc (str "f"), str "a_b.txt"⟩] = [] := by
  have : Tools.processOutDir id (str "ns_samples") (str "f/a") = (str "f", str "a") := by decide +kernel
  simp only [deleteOutput, Bool.not_true, Bool.false_eq_true, if_false, this]
  have : str "a" ≠ [] := by decide
  simp [polyDelete, this, globbed]
  decide

/-- **C92**: without `out_dir`, what the last run wrote; the other processes do nothing. -/
theorem C92_last (loc : Str → List Str) (dflt : Str) (s : Sampler) (last : List Str × Str) (fs : List File) (o : Option Str) :
    deleteOutput loc dflt s false last o fs = fs ∧
    (∀ f, f ∈ deleteOutput loc dflt .nessai true last none fs ↔ f ∈ fs ∧ ¬ last.1 <+: f.dir) ∧
    (∀ f, f ∈ deleteOutput loc dflt .ultranest true last none fs ↔ f ∈ fs ∧ ¬ last.1 <+: f.dir) ∧
    deleteOutput loc dflt .polychord true last none fs = polyDelete fs last.1 last.2 :=
  ⟨by simp [deleteOutput], fun f => by simp [deleteOutput, mem_rmtree], fun f => by simp [deleteOutput, mem_rmtree], by simp [deleteOutput]⟩

example : ⟨[str "g"], str "a.txt"⟩ ∈ deleteOutput (fun s => [s]) (str "ns_samples") .nessai true ([str "f"], str "a") none exFiles :=
  ((C92_last (fun s => [s]) (str "ns_samples") .nessai ([str "f"], str "a") exFiles none).2.1 _).2 ⟨by decide, by decide⟩

/-- **C92** for nessai: everything in the given folder is deleted (also what has another prefix), and nothing else. -/
theorem C92_nessai (loc : Str → List Str) (dflt folder root : Str) (last : List Str × Str) (fs : List File) (hp : '/' ∉ root) (hf : folder ≠ [])
    (hl : folder.getLast? ≠ some '/') (f : File) :
    f ∈ deleteOutput loc dflt .nessai true last (some (folder ++ '/' :: root)) fs ↔ f ∈ fs ∧ ¬ loc folder <+: f.dir := by
  simp only [deleteOutput, Bool.not_true, Bool.false_eq_true, if_false]
  rw [(Tools.C57_split_partial id dflt hp hf hl).1, mem_rmtree]
  rfl

example : ⟨[str "f", str "clusters"], str "a_1.txt"⟩ ∉ deleteOutput (fun s => [s]) (str "ns_samples") .nessai true ([], []) (some (str "f/a")) exFiles :=
  fun h => ((C92_nessai (fun s => [s]) (str "ns_samples") (str "f") (str "a") ([], []) exFiles (by decide) (by decide) (by decide) _).1 h).2 (by decide)

/-- **C92** is false for UltraNest: the given folder is ignored, and the output of the last run is deleted instead. -/
theorem C92_ultranest_counterexample (loc : Str → List Str) (dflt : Str) :
    ∃ (last : List Str × Str) (f1 f2 : File), ∀ o, deleteOutput loc dflt .ultranest true last (some o) [f1, f2] = [f2] ∧ f1.dir = last.1 ∧ f2.dir ≠ last.1 :=
  ⟨([['a']], []), ⟨[['a']], ['x']⟩, ⟨[['b']], ['x']⟩, fun o => ⟨by simp [deleteOutput, rmtree]; decide, rfl, by decide⟩⟩

example : deleteOutput (fun s => [s]) (str "ns_samples") .polychord true ([], []) (some (str "f/a"))
    [⟨[str "f"], str "a.txt"⟩, ⟨[str "f"], str "b.txt"⟩, ⟨[str "f", str "clusters"], str "a_1.txt"⟩, ⟨[str "g"], str "a.txt"⟩] =
    [⟨[str "f"], str "b.txt"⟩, ⟨[str "g"], str "a.txt"⟩] := by decide +kernel

/-! ## C93 -/

section
variable {K : Type}

/-- Any order that sorts the values (ties in any way). -/
def IsArgsort [LinearOrder K] (y : List K) (order : List ℕ) : Prop :=
  order.Perm (List.range y.length) ∧ order.Pairwise fun i j => ∀ (hi : i < y.length) (hj : j < y.length), y[i] ≤ y[j]

theorem countP_range [LinearOrder K] (y : List K) (q : K → Bool) :
    (List.range y.length).countP (fun j => (y[j]?).any q) = y.countP q := by
  induction y with
  | nil => rfl
  | cons a y ih =>
    rw [List.length_cons, List.range_succ_eq_map, List.countP_cons, List.countP_map, List.countP_cons, ← ih]
    congr 1
    all_goals simp [Function.comp_def]

/-- **C93**: process number `rank` starts at the training point that is the `rank`-th best, counting from zero: at most `rank` points are better, and
more than `rank` are at least as good. Different processes start at different points, and those for which there are none, from the prior. -/
theorem C93_start [LinearOrder K] (X : List (List K)) (y : List K) (d : ℕ) (hX : X.length = y.length) (order : List ℕ) (h : IsArgsort y order) (rank : ℕ) :
    (rank < y.length → ∃ i, ∃ hi : i < y.length, pick order rank = some i ∧ refPoint X d order rank = (X[i]'(by omega)).map some ∧
      y.countP (fun v => decide (y[i] < v)) ≤ rank ∧ rank < y.countP (fun v => decide (y[i] ≤ v))) ∧
    (y.length ≤ rank → refPoint X d order rank = List.replicate d none) ∧
    (∀ rank' i, pick order rank = some i → pick order rank' = some i → rank = rank') := by
  have hlen : order.length = y.length := by rw [h.1.length_eq, List.length_range]
  have hmem : ∀ i ∈ order, i < y.length := fun i hi => List.mem_range.1 (h.1.mem_iff.1 hi)
  have hnd : order.Nodup := h.1.nodup_iff.2 List.nodup_range
  refine ⟨fun hr => ?_, fun hr => ?_, ?_⟩
  · have hk : y.length - 1 - rank < order.length := by omega
    have hp : pick order rank = some order[y.length - 1 - rank] := by
      unfold pick
      rw [if_pos (by omega), hlen, List.getElem?_eq_getElem hk]
    have hi : order[y.length - 1 - rank] < y.length := hmem _ (List.getElem_mem hk)
    have hsplit : order = order.take (y.length - 1 - rank) ++ order[y.length - 1 - rank] :: order.drop (y.length - 1 - rank + 1) := by
      rw [← List.drop_eq_getElem_cons hk, List.take_append_drop]
    have hpw := h.2
    rw [hsplit, List.pairwise_append, List.pairwise_cons] at hpw
    have hcount : ∀ q : K → Bool, y.countP q = (order.take (y.length - 1 - rank)).countP (fun j => (y[j]?).any q) +
        (order[y.length - 1 - rank] :: order.drop (y.length - 1 - rank + 1)).countP (fun j => (y[j]?).any q) := by
      intro q
      rw [← countP_range y q, ← h.1.countP_eq, ← List.countP_append, ← hsplit]
    have hdl : (order.drop (y.length - 1 - rank + 1)).length = rank := by rw [List.length_drop, hlen]; omega
    refine ⟨_, hi, hp, ?_, ?_, ?_⟩
    · unfold refPoint
      rw [hp]
      dsimp only
      rw [List.getElem?_eq_getElem (by omega)]
    · rw [hcount]
      have h0 : (order.take (y.length - 1 - rank)).countP (fun j => (y[j]?).any fun v => decide (y[order[y.length - 1 - rank]] < v)) = 0 := by
        rw [List.countP_eq_zero]
        intro j hj
        have hjl : j < y.length := hmem j (List.mem_of_mem_take hj)
        have := hpw.2.2 j hj _ (List.mem_cons_self) hjl hi
        rw [List.getElem?_eq_getElem hjl]
        simpa using this
      rw [h0, Nat.zero_add, List.countP_cons]
      have h1 : (y[order[y.length - 1 - rank]]?).any (fun v => decide (y[order[y.length - 1 - rank]] < v)) = false := by
        rw [List.getElem?_eq_getElem hi]; simp
      rw [h1]
      simp only [Bool.false_eq_true, if_false, Nat.add_zero]
      exact (List.countP_le_length).trans hdl.le
    · rw [hcount]
      have h2 : (order[y.length - 1 - rank] :: order.drop (y.length - 1 - rank + 1)).countP (fun j => (y[j]?).any fun v => decide (y[order[y.length - 1 - rank]] ≤ v)) =
          (order[y.length - 1 - rank] :: order.drop (y.length - 1 - rank + 1)).length := by
        rw [List.countP_eq_length]
        intro j hj
        rcases List.mem_cons.1 hj with rfl | hj
        · rw [List.getElem?_eq_getElem hi]; simp
        · have hjl : j < y.length := hmem j (List.mem_of_mem_drop hj)
          have := hpw.2.1.1 j hj hi hjl
          rw [List.getElem?_eq_getElem hjl]
          simpa using this
      rw [h2, List.length_cons, hdl]
      omega
  · unfold refPoint pick
    rw [if_neg (by omega)]
  · intro rank' i h1 h2
    unfold pick at h1 h2
    split at h1 <;> [skip; cases h1]
    split at h2 <;> [skip; cases h2]
    rename_i ha hb
    have hk1 : order.length - 1 - rank < order.length := by omega
    have hk2 : order.length - 1 - rank' < order.length := by omega
    rw [List.getElem?_eq_getElem hk1] at h1
    rw [List.getElem?_eq_getElem hk2] at h2
    have := (List.Nodup.getElem_inj_iff hnd (hi := hk1) (hj := hk2)).1 (Option.some.inj (h1.trans h2.symm))
    omega

theorem exSort : IsArgsort [3, 1, 3, (2 : ℚ)] [1, 3, 0, 2] := by
  refine ⟨by decide, ?_⟩
  simp
  norm_num

example : ∃ i, ∃ hi : i < 4, pick [1, 3, 0, 2] 1 = some i ∧
    refPoint [[30], [10], [31], [20]] 1 [1, 3, 0, 2] 1 = ([[30], [10], [31], [(20 : ℚ)]][i]'hi).map some := by
  obtain ⟨i, hi, h1, h2, -⟩ := (C93_start [[30], [10], [31], [20]] [3, 1, 3, (2 : ℚ)] 1 rfl [1, 3, 0, 2] exSort 1).1 (by decide)
  exact ⟨i, hi, h1, h2⟩

/-- **C93** (partial: verbosity of at least two): the covariance matrix is passed exactly if there is a valid one. -/
theorem C93_covmat_partial {C : Type} (valid : C → Bool) (cov : Option C) (covParams : Option (List String)) (modelParams : List String) (verbose : ℕ)
    (hv : 2 ≤ verbose) :
    covBlock valid cov covParams modelParams verbose = (cov.filter valid).map fun c => (some c, if covParams.getD [] = [] then modelParams else covParams.getD []) := by
  have hp : (match covParams with | some (p :: ps) => p :: ps | _ => modelParams) = if covParams.getD [] = [] then modelParams else covParams.getD [] := by
    rcases covParams with _ | (_ | ⟨p, ps⟩) <;> simp
  have hb : covBlock valid cov covParams modelParams verbose = if (match cov with | none => true | some c => !valid c) && decide (2 ≤ verbose) then none
      else some (cov, if covParams.getD [] = [] then modelParams else covParams.getD []) := by rw [← hp]; rfl
  rw [hb]
  cases cov with
  | none => simp [hv]
  | some c => cases hc : valid c <;> simp [hv, hc, Option.filter]

example : covBlock (fun c : ℕ => c != 0) (some 5) none ["x", "y"] 3 = some (some 5, ["x", "y"]) ∧
    covBlock (fun c : ℕ => c != 0) (some 0) none ["x", "y"] 3 = none :=
  ⟨C93_covmat_partial (fun c : ℕ => c != 0) (some 5) none ["x", "y"] 3 (by decide),
    C93_covmat_partial (fun c : ℕ => c != 0) (some 0) none ["x", "y"] 3 (by decide)⟩

/-- **C93** is false for lower verbosity: an invalid matrix, or none, is passed. -/
theorem C93_covmat_counterexample {C : Type} (valid : C → Bool) (c : C) (hc : valid c = false) (covParams : Option (List String)) (modelParams : List String) :
    (∃ ps, covBlock valid (some c) covParams modelParams 1 = some (some c, ps)) ∧ ∃ ps, covBlock valid none covParams modelParams 1 = some (none, ps) :=
  ⟨⟨_, by simp [covBlock, hc]; rfl⟩, ⟨_, by simp [covBlock]; rfl⟩⟩

example : IsArgsort [3, 1, 3, (2 : ℚ)] [1, 3, 0, 2] ∧ refPoint [[30], [10], [31], [20]] 1 [1, 3, 0, 2] 1 = [some (30 : ℚ)] ∧
    refPoint [[30], [10], [31], [20]] 1 [1, 3, 0, 2] 4 = [(none : Option ℚ)] := by
  refine ⟨⟨by decide, ?_⟩, rfl, rfl⟩
  simp
  norm_num

/-! ## C94 -/

/-- The columns after the first `n`: names, and values in each row. -/
def Has (n : ℕ) (X : List (List K)) (s : List (List K) × List String × List String) (P : List String × List String) (cols : List (String × String × List K)) : Prop :=
  s.2.1 = P.1 ++ cols.map (·.1) ∧ s.2.2 = P.2 ++ cols.map (·.2.1) ∧ s.1.length = X.length ∧
  ∀ j (h2 : j < X.length), s.1[j]? = some (X[j] ++ cols.filterMap fun c => c.2.2[j]?)

theorem addColumn_has [Sub K] [LinearOrder K] (tol : K) (n : ℕ) (X : List (List K)) (s : List (List K) × List String × List String) (P : List String × List String)
    (cols : List (String × String × List K)) (h : Has n X s P cols) (c : String × String × Option (List K)) (hc : ∀ y, c.2.2 = some y → y.length = X.length) :
    Has n X (addColumn tol s c) P cols ∧ (∀ y ys, c.2.2 = some (y :: ys) → ¬ tol < ys.foldl max y - ys.foldl min y) ∨
    ∃ y ys, c.2.2 = some (y :: ys) ∧ tol < ys.foldl max y - ys.foldl min y ∧ Has n X (addColumn tol s c) P (cols ++ [(c.1 ++ "*", c.2.1, y :: ys)]) := by
  unfold addColumn
  rcases hcc : c.2.2 with _ | (_ | ⟨y, ys⟩)
  · exact .inl ⟨h, by simp⟩
  · exact .inl ⟨h, by simp⟩
  · by_cases ht : tol < ys.foldl max y - ys.foldl min y
    · right
      refine ⟨y, ys, rfl, ht, ?_⟩
      simp only [if_pos ht]
      have hl := hc _ hcc
      obtain ⟨h1, h2, h3, h4⟩ := h
      refine ⟨by simp [h1], by simp [h2], by simp only [List.length_zipWith, h3, hl, min_self], ?_⟩
      intro j hj2
      have hj3 : j < (y :: ys).length := by omega
      show (List.zipWith (fun x v => x ++ [v]) s.1 (y :: ys))[j]? = _
      rw [List.getElem?_zipWith, h4 j hj2, List.getElem?_eq_getElem hj3, List.filterMap_append, ← List.append_assoc]
      simp only [List.filterMap_cons, List.filterMap_nil, List.getElem?_eq_getElem hj3]
    · left
      simp only [if_neg ht]
      exact ⟨h, by rintro y' ys' hy; cases hy; exact ht⟩

/-- **C94** (partial: with bounds): in the samples for GetDist, each row has the coordinates followed by the log-densities that are given and not constant, in the order
posterior, prior, likelihood, under their names with `*`; the weights are those given, `loglikes` is minus the log-posterior; and the ranges of the
parameters are their bounds. -/
theorem C94_getdist_partial [Sub K] [Neg K] [LinearOrder K] (tol : K) (params : PNames) (bs : List (K × K)) (X : List (List K)) (w : Option (List K))
    (logpost logprior loglike : Option (List K)) (h1 : ∀ y, logpost = some y → y.length = X.length) (h2 : ∀ y, logprior = some y → y.length = X.length)
    (h3 : ∀ y, loglike = some y → y.length = X.length) :
    ∃ (g : GSamples K) (cols : List (String × String × List K)), toGetdist tol params (some bs) X w logpost logprior loglike = .ok g ∧
      g.weights = w ∧ g.loglikes = logpost.map (·.map (-·)) ∧ g.names = params.names ++ cols.map (·.1) ∧ g.labels = params.labels ++ cols.map (·.2.1) ∧
      g.rows.length = X.length ∧ (∀ j (hj : j < X.length), g.rows[j]? = some (X[j] ++ cols.filterMap fun c => c.2.2[j]?)) ∧
      (cols.map fun c => (c.1, c.2.2)).Sublist ([("logpost*", logpost), ("logprior*", logprior), ("loglike*", loglike)].filterMap fun q => q.2.map fun y => (q.1, y)) ∧
      (∀ q ∈ [("logpost*", logpost), ("logprior*", logprior), ("loglike*", loglike)], ∀ y ys, q.2 = some (y :: ys) →
        ((q.1, y :: ys) ∈ cols.map (fun c => (c.1, c.2.2)) ↔ tol < ys.foldl max y - ys.foldl min y)) ∧
      (bs.length = params.names.length → g.ranges = params.names.zip bs) := by
  have h0 : Has 0 X (X, params.names, params.labels) (params.names, params.labels) [] := ⟨by simp, by simp, rfl, fun j hj => by simp [hj]⟩
  -- the three columns one after the other
  have step : ∀ (s : List (List K) × List String × List String) (cols : List (String × String × List K)) (n l : String) (v : Option (List K)),
      (∀ y, v = some y → y.length = X.length) → Has 0 X s (params.names, params.labels) cols →
      ∃ new : List (String × String × List K), Has 0 X (addColumn tol s (n, l, v)) (params.names, params.labels) (cols ++ new) ∧
        ((new = [] ∧ ∀ y ys, v = some (y :: ys) → ¬ tol < ys.foldl max y - ys.foldl min y) ∨
          ∃ y ys, v = some (y :: ys) ∧ tol < ys.foldl max y - ys.foldl min y ∧ new = [(n ++ "*", l, y :: ys)]) := by
    intro s cols n l v hv hs
    rcases addColumn_has tol 0 X s _ cols hs (n, l, v) hv with ⟨ha, hb⟩ | ⟨y, ys, ha, hb, hc⟩
    · exact ⟨[], by simpa using ha, .inl ⟨rfl, hb⟩⟩
    · exact ⟨_, hc, .inr ⟨y, ys, ha, hb, rfl⟩⟩
  obtain ⟨n1, hs1, hn1⟩ := step _ _ "logpost" "\\log(p)" logpost h1 h0
  obtain ⟨n2, hs2, hn2⟩ := step _ _ "logprior" "\\log(\\pi)" logprior h2 hs1
  obtain ⟨n3, hs3, hn3⟩ := step _ _ "loglike" "\\log(\\mathrm{L})" loglike h3 hs2
  have e1 : "logpost" ++ "*" = "logpost*" := by decide
  have e2 : "logprior" ++ "*" = "logprior*" := by decide
  have e3 : "loglike" ++ "*" = "loglike*" := by decide
  rw [e1] at hn1
  rw [e2] at hn2
  rw [e3] at hn3
  have hsub : ∀ (new : List (String × String × List K)) (n l : String) (v : Option (List K)),
      ((new = [] ∧ ∀ y ys, v = some (y :: ys) → ¬ tol < ys.foldl max y - ys.foldl min y) ∨
          ∃ y ys, v = some (y :: ys) ∧ tol < ys.foldl max y - ys.foldl min y ∧ new = [(n, l, y :: ys)]) →
      (new.map fun c => (c.1, c.2.2)).Sublist ((v.map fun y => (n, y)).toList) ∧
      (∀ y ys, v = some (y :: ys) → ((n, y :: ys) ∈ new.map (fun c => (c.1, c.2.2)) ↔ tol < ys.foldl max y - ys.foldl min y)) ∧
      ∀ c ∈ new, c.1 = n := by
    rintro new n l v (⟨rfl, h⟩ | ⟨y, ys, rfl, h, rfl⟩)
    · refine ⟨by simp, fun y ys hy => ?_, by simp⟩
      simpa using h y ys hy
    · refine ⟨by simp, fun y' ys' hy => ?_, by simp⟩
      cases hy
      simpa using h
  obtain ⟨a1, b1, c1⟩ := hsub _ _ _ _ hn1
  obtain ⟨a2, b2, c2⟩ := hsub _ _ _ _ hn2
  obtain ⟨a3, b3, c3⟩ := hsub _ _ _ _ hn3
  refine ⟨_, n1 ++ n2 ++ n3, rfl, rfl, rfl, ?_, ?_, ?_, ?_, ?_, ?_, ?_⟩
  · simpa using hs3.1
  · simpa using hs3.2.1
  · exact hs3.2.2.1
  · intro j hj
    exact hs3.2.2.2 j hj
  · have : ([("logpost*", logpost), ("logprior*", logprior), ("loglike*", loglike)].filterMap fun q => q.2.map fun y => (q.1, y)) =
        (logpost.map fun y => ("logpost*", y)).toList ++ (logprior.map fun y => ("logprior*", y)).toList ++ (loglike.map fun y => ("loglike*", y)).toList := by
      cases logpost <;> cases logprior <;> cases loglike <;> rfl
    rw [this, List.map_append, List.map_append]
    exact (a1.append a2).append a3
  · intro q hq y ys hy
    have hmem : ∀ (new : List (String × String × List K)) (n : String), (∀ c ∈ new, c.1 = n) → q.1 ≠ n → (q.1, y :: ys) ∉ new.map (fun c => (c.1, c.2.2)) := by
      intro new n hn hne h
      obtain ⟨c, hc, hce⟩ := List.mem_map.1 h
      exact hne ((congrArg Prod.fst hce).symm.trans (hn c hc))
    rw [List.map_append, List.map_append, List.mem_append, List.mem_append]
    simp only [List.mem_cons, List.not_mem_nil, or_false] at hq
    rcases hq with rfl | rfl | rfl
    · have m2 := hmem n2 _ c2 (show "logpost*" ≠ "logprior*" by decide)
      have m3 := hmem n3 _ c3 (show "logpost*" ≠ "loglike*" by decide)
      rw [← b1 y ys hy]
      tauto
    · have m1 := hmem n1 _ c1 (show "logprior*" ≠ "logpost*" by decide)
      have m3 := hmem n3 _ c3 (show "logprior*" ≠ "loglike*" by decide)
      rw [← b2 y ys hy]
      tauto
    · have m1 := hmem n1 _ c1 (show "loglike*" ≠ "logpost*" by decide)
      have m2 := hmem n2 _ c2 (show "loglike*" ≠ "logprior*" by decide)
      rw [← b3 y ys hy]
      tauto
  · intro hb
    show List.zip _ _ = _
    have : (addColumn tol (addColumn tol (addColumn tol (X, params.names, params.labels) ("logpost", "\\log(p)", logpost)) ("logprior", "\\log(\\pi)", logprior))
        ("loglike", "\\log(\\mathrm{L})", loglike)).2.1 = params.names ++ ([] ++ n1 ++ n2 ++ n3).map (fun c : String × String × List K => c.1) := hs3.1
    show List.zip (addColumn tol (addColumn tol (addColumn tol (X, params.names, params.labels) ("logpost", "\\log(p)", logpost)) ("logprior", "\\log(\\pi)", logprior))
        ("loglike", "\\log(\\mathrm{L})", loglike)).2.1 bs = _
    rw [this, show bs = bs ++ [] by simp, List.zip_append hb.symm]
    simp

example : ∃ (g : GSamples ℚ), toGetdist (1 / 10 : ℚ) (.labelled [("a", "A"), ("b", "B")]) (some [(0, 1), (0, 2)]) [[1, 2], [3, 4]] none
      (some [5, 6]) (some [7, 7]) none = .ok g ∧ g.loglikes = some [-5, -6] ∧ g.ranges = [("a", (0, 1)), ("b", (0, 2))] := by
  obtain ⟨g, cols, h, -, h2, -, -, -, -, -, -, h9⟩ := C94_getdist_partial (1 / 10 : ℚ) (.labelled [("a", "A"), ("b", "B")]) [(0, 1), (0, 2)]
    [[1, 2], [3, 4]] none (some [5, 6]) (some [7, 7]) none (by rintro y ⟨⟩; rfl) (by rintro y ⟨⟩; rfl) (by rintro y ⟨⟩)
  exact ⟨g, h, h2, h9 rfl⟩

/-- **C94** is false without bounds, which is the default; and samples of Cobaya, which are documented, cannot be processed. -/
theorem C94_counterexample [Sub K] [Neg K] [LinearOrder K] (tol : K) (params : PNames) (X : List (List K)) (w logpost logprior loglike : Option (List K))
    (installed : Bool) : toGetdist tol params none X w logpost logprior loglike = .error .typeError ∧ ∃ e, processGd installed .cobaya = .error e := by
  refine ⟨rfl, ?_⟩
  cases installed <;> exact ⟨_, rfl⟩

example : ∃ g, toGetdist (1 / 10 : ℚ) (.labelled [("a", "A"), ("b", "B")]) (some [(0, 1), (0, 2)]) [[1, 2], [3, 4]] none (some [5, 6]) (some [7, 7]) (some [-2, -1]) = .ok g ∧
    g.rows = [[1, 2, 5, -2], [3, 4, 6, -1]] ∧ g.names = ["a", "b", "logpost*", "loglike*"] ∧ g.loglikes = some [-5, -6] ∧
    g.ranges = [("a", (0, 1)), ("b", (0, 2))] := ⟨_, rfl, by decide +kernel, by decide +kernel, by decide +kernel, by decide +kernel⟩

/-! ## C96 -/

/-- **C96** (partial: names of parameters given): the file has one row per sample with weight (one if none), minus log-posterior and coordinates, in the columns named. -/
theorem C96_file_partial [Neg K] [One K] (ps : List String) (X : List (List K)) (y : List K) (w : Option (List K)) (hX : X.length = y.length)
    (hw : ∀ w', w = some w' → w'.length = y.length) :
    ∃ rows, sampleFile (some ps) X y w = .ok ("w" :: "minuslogp" :: ps, rows) ∧ rows.length = y.length ∧
      ∀ j (h1 : j < rows.length) (h2 : j < y.length) (h3 : j < X.length),
        rows[j] = (match w with | none => 1 | some w' => w'.getD j 1) :: (-y[j]) :: X[j] := by
  have hl : (w.getD (List.replicate y.length 1)).length = y.length := by
    cases w with
    | none => simp
    | some w' => exact hw w' rfl
  refine ⟨_, rfl, by simp [hl, hX], ?_⟩
  intro j h1 h2 h3
  simp only [List.getElem_zipWith, List.getElem_zip]
  congr 1
  cases w with
  | none => simp
  | some w' =>
    have : j < w'.length := by rw [hw w' rfl]; exact h2
    simp [List.getD, this]

example : ∃ rows, sampleFile (some ["a", "b"]) [[1, 2], [3, 4]] [5, (6 : ℚ)] (some [2, 1]) = .ok (["w", "minuslogp", "a", "b"], rows) ∧ rows.length = 2 := by
  obtain ⟨rows, h1, h2, -⟩ := C96_file_partial ["a", "b"] [[1, 2], [3, 4]] [5, (6 : ℚ)] (some [2, 1]) rfl (by rintro w ⟨⟩; rfl)
  exact ⟨rows, h1, h2⟩

/-- **C96** is false without names of the parameters, which are optional. -/
theorem C96_names_counterexample [Neg K] [One K] (X : List (List K)) (y : List K) (w : Option (List K)) : sampleFile none X y w = .error .nameError := rfl

theorem splitExt_plain (name : Str) (h : '.' ∉ name) : splitExt name = (name, []) := by
  have hd : name.dropWhile (· = '.') = name := by
    cases name with
    | nil => rfl
    | cons a l =>
      have : a ≠ '.' := fun e => h (by simp [e])
      simp [this]
  have ht : (name.reverse.takeWhile (· ≠ '.')).reverse = name := by
    rw [List.takeWhile_eq_self_iff.2]
    · simp
    · intro c hc
      have : c ≠ '.' := fun e => h (by simpa [e] using hc)
      simpa using this
  unfold splitExt
  dsimp only
  rw [hd, ht, if_pos rfl]

theorem splitExt_ext (root ext : Str) (h : '.' ∉ ext) (hr : root ≠ []) (h0 : root.head? ≠ some '.') : splitExt (root ++ '.' :: ext) = (root, '.' :: ext) := by
  cases root with
  | nil => exact absurd rfl hr
  | cons a l =>
    have ha : a ≠ '.' := fun e => h0 (by simp [e])
    have hd : ((a :: l) ++ '.' :: ext).dropWhile (· = '.') = (a :: l) ++ '.' :: ext := by simp [ha]
    have hl : ((a :: l) ++ '.' :: ext).takeWhile (· = '.') = [] := by simp [ha]
    have ht : (((a :: l) ++ '.' :: ext).reverse.takeWhile (· ≠ '.')).reverse = ext := by
      have : ((a :: l) ++ '.' :: ext).reverse = ext.reverse ++ '.' :: (a :: l).reverse := by simp
      rw [this, List.takeWhile_append_of_pos]
      · simp
      · intro c hc
        have : c ≠ '.' := fun e => h (by simpa [e] using hc)
        simpa using this
    unfold splitExt
    dsimp only
    rw [hd, ht, hl, if_neg (by simp only [List.length_append, List.length_cons]; omega)]
    have : ((a :: l) ++ '.' :: ext).length - ext.length - 1 = (a :: l).length := by simp only [List.length_append, List.length_cons]; omega
    rw [this]
    simp

/-- **C96**: the place of the file: in the folder given, or else the current one; with the extension given, or else `.txt`; and under a default name if
only a folder is given. -/
theorem C96_path (curdir folder name ext : Str) (hf : folder ≠ []) (hl : folder.getLast? ≠ some '/') (hn : '/' ∉ name) (hd : '.' ∉ name) (he : '.' ∉ ext) (he' : '/' ∉ ext)
    (hne : name ≠ []) :
    samplePath curdir (folder ++ '/' :: (name ++ '.' :: ext)) = (folder, name ++ '.' :: ext) ∧
    samplePath curdir (folder ++ '/' :: name) = (folder, name ++ str ".txt") ∧
    samplePath curdir (folder ++ ['/']) = (folder, str "mc_samples.txt") ∧
    samplePath curdir name = (curdir, name ++ str ".txt") := by
  have hall : folder.all (· = '/') = false := by
    rcases List.eq_nil_or_concat folder with rfl | ⟨t, c, rfl⟩
    · exact absurd rfl hf
    · have : c ≠ '/' := by simpa using hl
      simp [this]
  have hrs : Tools.rstrip (folder ++ ['/']) = folder := by
    rcases List.eq_nil_or_concat folder with rfl | ⟨t, c, rfl⟩
    · exact absurd rfl hf
    · have : c ≠ '/' := by simpa using hl
      simp [Tools.rstrip, this]
  have hsp : ∀ tail : Str, '/' ∉ tail → Tools.osSplit (folder ++ '/' :: tail) = (folder, tail) := by
    intro tail ht
    rw [Tools.osSplit_join ht, hall, hrs]
    simp
  have hh : name.head? ≠ some '.' := by
    cases name with
    | nil => simp
    | cons a l => intro h; simp at h; exact hd (by simp [h])
  refine ⟨?_, ?_, ?_, ?_⟩
  · unfold samplePath
    have hm : '/' ∉ name ++ '.' :: ext := by
      simp [hn, he']
    rw [hsp _ hm]
    dsimp only
    rw [if_neg hf, if_neg (by simp), splitExt_ext name ext he hne hh]
    simp
  · unfold samplePath
    rw [hsp _ hn]
    dsimp only
    rw [if_neg hf, if_neg hne, splitExt_plain name hd]
    simp
  · unfold samplePath
    rw [hsp [] (by simp)]
    dsimp only
    rw [if_neg hf, if_pos rfl, show str "mc_samples.txt" = str "mc_samples" ++ '.' :: str "txt" by decide,
      splitExt_ext _ _ (by decide) (by decide) (by decide)]
    simp
  · have : Tools.osSplit name = ([], name) := by
      unfold Tools.osSplit
      have h1 : name.reverse.takeWhile (· ≠ '/') = name.reverse := by
        rw [List.takeWhile_eq_self_iff]
        intro c hc
        have : c ≠ '/' := fun e => hn (by simpa [e] using hc)
        simpa using this
      have h2 : name.reverse.dropWhile (· ≠ '/') = [] := by
        rw [List.dropWhile_eq_nil_iff]
        intro c hc
        have : c ≠ '/' := fun e => hn (by simpa [e] using hc)
        simpa using this
      dsimp only
      rw [h1, h2]
      simp
    unfold samplePath
    rw [this]
    dsimp only
    rw [if_pos rfl, if_neg hne, splitExt_plain name hd]
    simp

example : sampleFile (some ["a", "b"]) [[1, 2], [3, 4]] [5, (6 : ℚ)] none = .ok (["w", "minuslogp", "a", "b"], [[1, -5, 1, 2], [1, -6, 3, 4]]) := rfl

end

/-! ## C97 -/

theorem setPrecision_aux {V : Type} (parse : V → Except MErr V) (kw : Dict String (Option V)) : ∀ (names : List (String × String × Bool)),
    (names.map (·.2.1)).Nodup → ∀ (settings res : Dict String V), names.foldlM (setOne parse kw) settings = .ok res →
    (∀ q ∈ names, match get kw q.1 with
      | some (some v) => ∃ v', get res q.2.1 = some v' ∧ (if q.2.2 then parse v = .ok v' else v' = v)
      | _ => get res q.2.1 = get settings q.2.1) ∧
    ∀ k, k ∉ names.map (·.2.1) → get res k = get settings k
  | [], _, settings, res, h => by
    have : settings = res := by injection h
    exact ⟨by simp, fun k _ => by rw [this]⟩
  | q :: names, hnd, settings, res, h => by
    rw [List.map_cons, List.nodup_cons] at hnd
    rw [List.foldlM_cons] at h
    cases h1 : setOne parse kw settings q with
    | error e => rw [h1] at h; cases h
    | ok s1 =>
      rw [h1] at h
      obtain ⟨ha, hb⟩ := setPrecision_aux parse kw names hnd.2 s1 res h
      have hother : ∀ k, k ≠ q.2.1 → get s1 k = get settings k := by
        intro k hk
        unfold setOne at h1
        split at h1
        · injection h1 with h1; rw [h1]
        · injection h1 with h1; rw [h1]
        · split at h1
          · split at h1
            · injection h1 with h1; rw [← h1, get_put, if_neg (fun e => hk e.symm)]
            · cases h1
          · injection h1 with h1; rw [← h1, get_put, if_neg (fun e => hk e.symm)]
      constructor
      · intro q' hq'
        rcases List.mem_cons.1 hq' with rfl | hq'
        · unfold setOne at h1
          rw [hb _ hnd.1]
          split at h1
          · rename_i hk; rw [hk]; injection h1 with h1; rw [h1]
          · rename_i hk; rw [hk]; injection h1 with h1; rw [h1]
          · rename_i v hk
            rw [hk]
            dsimp only
            split at h1
            · rename_i hp
              split at h1
              · rename_i w hw
                injection h1 with h1
                refine ⟨w, ?_, ?_⟩
                · rw [← h1, get_put, if_pos rfl]
                · rw [if_pos hp, hw]
              · cases h1
            · rename_i hp
              injection h1 with h1
              refine ⟨v, ?_, ?_⟩
              · rw [← h1, get_put, if_pos rfl]
              · rw [if_neg hp]
        · have := ha q' hq'
          have hne : q'.2.1 ≠ q.2.1 := by
            intro e
            exact hnd.1 (by rw [← e]; exact List.mem_map_of_mem (f := fun x : String × String × Bool => x.2.1) hq')
          split at this
          · exact this
          · rw [this, hother _ hne]
      · intro k hk
        rw [List.map_cons, List.mem_cons, not_or] at hk
        rw [hb k hk.2, hother k hk.1]

/-- **C97**: of any precision parameters given, those known to the sampler set their own setting, to the value given (parsed if it is a number with
units); those not given or `None`, and the ones not known, change nothing. -/
theorem C97_precision {V : Type} (parse : V → Except MErr V) (s : Sampler) (kw : Dict String (Option V)) (settings res : Dict String V)
    (h : setPrecision parse s kw settings = .ok res) :
    (∀ q ∈ precisionNames s, match get kw q.1 with
      | some (some v) => ∃ v', get res q.2.1 = some v' ∧ (if q.2.2 then parse v = .ok v' else v' = v)
      | _ => get res q.2.1 = get settings q.2.1) ∧
    ∀ k, k ∉ (precisionNames s).map (·.2.1) → get res k = get settings k :=
  setPrecision_aux parse kw _ (by cases s <;> decide) settings res h

example : get [("max_ncalls", 7), ("min_num_live_points", (50 : ℕ))] "max_ncalls" = some 7 :=
  (C97_precision (fun v => .ok (10 * v)) .ultranest [("nlive", some 5), ("num_repeats", some 3), ("max_ncalls", none)] [("max_ncalls", 7)] _ rfl).1
    ("max_ncalls", "max_ncalls", true) (by decide)

/-- The number of live points is known to all, the rest not. -/
theorem C97_known (s : Sampler) : (∃ k, ("nlive", k, true) ∈ precisionNames s) ∧ (∃ k, ("precision_criterion", k, false) ∈ precisionNames s) ∧
    (("num_repeats" ∈ (precisionNames s).map Prod.fst) ↔ s = .polychord) ∧ ("max_ncalls" ∈ (precisionNames s).map Prod.fst ↔ s ≠ .nessai) := by
  cases s
  · exact ⟨⟨"nlive", by decide⟩, ⟨"precision_criterion", by decide⟩, by decide, by decide⟩
  · exact ⟨⟨"nlive", by decide⟩, ⟨"stopping", by decide⟩, by decide, by decide⟩
  · exact ⟨⟨"min_num_live_points", by decide⟩, ⟨"frac_remain", by decide⟩, by decide, by decide⟩

example : "num_repeats" ∉ (precisionNames .ultranest).map Prod.fst := fun h => absurd ((C97_known .ultranest).2.2.1.1 h) (by decide)

section
variable {K : Type} [Field K] [LinearOrder K] [IsStrictOrderedRing K]

/-- **C97**: UltraNest's prior transform is a bijection of the unit cube and the bounds, in each coordinate, and increasing. -/
theorem C97_transform (b : K × K) (hb : b.1 < b.2) :
    (∀ q, 0 ≤ q ∧ q ≤ 1 ↔ b.1 ≤ transform1 b q ∧ transform1 b q ≤ b.2) ∧ (∀ x, ∃! q, transform1 b q = x) ∧ StrictMono (transform1 b) ∧
    transform1 b 0 = b.1 ∧ transform1 b 1 = b.2 := by
  have hw : 0 < b.2 - b.1 := sub_pos.2 hb
  unfold transform1
  refine ⟨fun q => ?_, fun x => ⟨(x - b.1) / (b.2 - b.1), ?_, ?_⟩, ?_, by ring, by ring⟩
  · constructor
    · rintro ⟨h0, h1⟩
      constructor <;> nlinarith
    · rintro ⟨h0, h1⟩
      constructor
      · by_contra hq
        push Not at hq
        nlinarith
      · by_contra hq
        push Not at hq
        nlinarith
  · dsimp only
    rw [div_mul_cancel₀ _ hw.ne']; ring
  · intro q hq
    rw [eq_div_iff hw.ne', ← hq]; ring
  · intro q q' h
    show q * _ + _ < q' * _ + _
    nlinarith

example : StrictMono (transform1 ((-2 : ℚ), 5)) ∧ ∃! q, transform1 ((-2 : ℚ), 5) q = 9 :=
  ⟨(C97_transform ((-2 : ℚ), 5) (by norm_num)).2.2.1, (C97_transform ((-2 : ℚ), 5) (by norm_num)).2.1 9⟩

/-- **C97**, several coordinates. -/
theorem C97_transform_box (bounds : List (K × K)) (hb : ∀ b ∈ bounds, b.1 < b.2) (q : List K) (hq : q.length = bounds.length) :
    (∀ v ∈ q, 0 ≤ v ∧ v ≤ 1) ↔ List.Forall₂ (fun b x => b.1 ≤ x ∧ x ≤ b.2) bounds (priorTransform bounds q) := by
  induction bounds generalizing q with
  | nil =>
    have : q = [] := List.length_eq_zero_iff.1 hq
    simp [this, priorTransform]
  | cons b bs ih =>
    cases q with
    | nil => simp at hq
    | cons v q =>
      have h1 := (C97_transform b (hb b (by simp))).1 v
      have h2 := ih (fun b' hb' => hb b' (by simp [hb'])) q (by simpa using hq)
      unfold priorTransform at h2 ⊢
      rw [List.zipWith_cons_cons, List.forall₂_cons, ← h1, ← h2]
      simp

example : List.Forall₂ (fun b x => b.1 ≤ x ∧ x ≤ b.2) [((-2 : ℚ), 5), (0, 1)] (priorTransform [((-2 : ℚ), 5), (0, 1)] [1 / 2, 1]) :=
  (C97_transform_box [((-2 : ℚ), 5), (0, 1)] (by decide +kernel) [1 / 2, 1] rfl).1 (by decide +kernel)

/-- **C97** (partial: points one by one) nessai's prior is zero inside of the bounds and minus infinity outside. -/
theorem C97_nessai_partial (inBounds : List K → Bool) (x : List K) : nessaiLogPrior inBounds [x] = if inBounds x then .fin 0 else .negInf := by
  unfold nessaiLogPrior
  cases h : inBounds x <;> simp [h]

example : nessaiLogPrior (fun x : List ℚ => decide (0 ≤ x.sum)) [[1, -2]] = .negInf := by
  rw [C97_nessai_partial]
  decide +kernel

/-- **C97** is false for several points at once: if one of them is inside, all have prior zero. -/
theorem C97_nessai_counterexample (inBounds : List K → Bool) (x x' : List K) (h : inBounds x = true) (h' : inBounds x' = false) :
    nessaiLogPrior inBounds [x, x'] = .fin 0 ∧ nessaiLogPrior inBounds [x'] = .negInf := by
  simp [nessaiLogPrior, h, h']

end

example : setPrecision (fun v => .ok (10 * v)) .ultranest [("nlive", some 5), ("num_repeats", some 3), ("max_ncalls", none)] [("max_ncalls", 7)] =
    .ok [("max_ncalls", 7), ("min_num_live_points", (50 : ℕ))] := by rfl

/-! ## C98 -/

/-- **C98**: without a name, PolyChord is used if installed, else UltraNest if installed, and otherwise it raises; the same in the acquisition and for the final
sample. -/
theorem C98_default (installed : Sampler → Bool) :
    chooseNs installed none = (if installed .polychord then .ok .polychord else if installed .ultranest then .ok .ultranest else .error .notInstalled) ∧
    (∀ s, chooseNs installed none = .ok s ↔ ∃ n, initSampler installed none = .ok (some s, n)) ∧
    (chooseNs installed none = .error .notInstalled ↔ initSampler installed none = .error .notInstalled) := by
  have e1 : interfaceOf (lower (str "polychord")) = some .polychord := by decide +kernel
  have e2 : interfaceOf (lower (str "ultranest")) = some .ultranest := by decide +kernel
  have e3 : lower (str "nested") = str "nested" := by decide +kernel
  have h1 : chooseNs installed none = (if installed .polychord then .ok .polychord else if installed .ultranest then .ok .ultranest else .error .notInstalled) := by
    unfold chooseNs
    simp only [Option.getD_none, e3, if_true]
  have h2 : initSampler installed none = (if installed .polychord then .ok (some .polychord, str "polychord") else
      if installed .ultranest then .ok (some .ultranest, str "ultranest") else .error .notInstalled) := by
    have l1 : loadSampler installed (str "polychord") = if installed .polychord then .ok (some .polychord, str "polychord") else .error .notInstalled := by
      simp only [loadSampler, e1]
    have l2 : loadSampler installed (str "ultranest") = if installed .ultranest then .ok (some .ultranest, str "ultranest") else .error .notInstalled := by
      simp only [loadSampler, e2]
    by_cases hp : installed .polychord = true
    · rw [if_pos hp] at l1 ⊢
      simp only [initSampler, l1]
    · rw [if_neg hp] at l1 ⊢
      simp only [initSampler, l1, l2]
  refine ⟨h1, fun s => ?_, ?_⟩
  · rw [h1, h2]
    by_cases hp : installed .polychord = true
    · simp [hp]
    · by_cases hu : installed .ultranest = true <;> simp [hp, hu]
  · rw [h1, h2]
    by_cases hp : installed .polychord = true
    · simp [hp]
    · by_cases hu : installed .ultranest = true <;> simp [hp, hu]

example : chooseNs (fun s => s = .ultranest) none = .ok .ultranest := (C98_default fun s => s = .ultranest).1

/-- **C98**: with a name, in any case of the letters, that sampler, if installed. -/
theorem C98_named (installed : Sampler → Bool) (s : Sampler) (name : Str) (h : interfaceOf (lower name) = some s) :
    chooseNs installed (some name) = (if installed s then .ok s else .error .notInstalled) ∧
    initSampler installed (some name) = (if installed s then .ok (some s, name) else .error .notInstalled) := by
  have hn : lower name ≠ str "nested" := by
    intro e
    rw [e] at h
    have : interfaceOf (str "nested") = none := by decide
    rw [this] at h
    cases h
  refine ⟨?_, ?_⟩
  · unfold chooseNs
    simp only [Option.getD_some, if_neg hn, h]
  · simp only [initSampler, loadSampler, h]

example : chooseNs (fun s => s = .ultranest) (some (str "Nessai")) = .error .notInstalled :=
  (C98_named (fun s => s = .ultranest) .nessai (str "Nessai") (by decide)).1

/-- Other names are refused (except for `uniform` in the acquisition, meant for tests, and `nested` for the final sample). -/
theorem C98_unknown (installed : Sampler → Bool) (name : Str) (h : interfaceOf (lower name) = none) :
    (lower name ≠ str "nested" → chooseNs installed (some name) = .error .valueError) ∧
    (lower name ≠ str "uniform" → initSampler installed (some name) = .error .valueError) := by
  refine ⟨fun hn => ?_, fun hn => ?_⟩
  · unfold chooseNs
    simp only [Option.getD_some, if_neg hn, h]
  · simp only [initSampler, loadSampler, h, if_pos hn]

example : initSampler (fun _ => true) (some (str "MultiNest")) = .error .valueError :=
  (C98_unknown (fun _ => true) (str "MultiNest") (by decide)).2 (by decide)

/-- **C98**: the number of live points grows with the training set up to its maximum, and that of prior samples is in proportion. -/
theorem C98_nlive (perTraining nMax perNlive n n' : ℕ) :
    nlive perTraining nMax n ≤ nMax ∧ (n ≤ n' → nlive perTraining nMax n ≤ nlive perTraining nMax n') ∧
    (perTraining * n ≤ nMax → nlive perTraining nMax n = perTraining * n) ∧ (nMax ≤ perTraining * n → nlive perTraining nMax n = nMax) ∧
    (0 < perTraining → 0 < nMax → 0 < n → 0 < nlive perTraining nMax n) ∧ nprior perNlive perTraining nMax n = perNlive * nlive perTraining nMax n := by
  unfold nprior nlive
  refine ⟨min_le_right _ _, fun h => min_le_min_right _ (Nat.mul_le_mul_left _ h), fun h => min_eq_left h, fun h => min_eq_right h, fun h1 h2 h3 => ?_, rfl⟩
  exact lt_min (Nat.mul_pos h1 h3) h2

example : nlive 3 100 20 = 60 ∧ nlive 3 100 40 = 100 :=
  ⟨(C98_nlive 3 100 10 20 20).2.2.1 (by decide), (C98_nlive 3 100 10 40 40).2.2.2.1 (by decide)⟩

/-- The number written in decimal. -/
def decimal (l : List Char) : ℕ := l.foldl (fun a c => 10 * a + (c.toNat - 48)) 0

theorem decimal_toDigits (n : ℕ) : decimal (Nat.toDigits 10 n) = n := by
  induction n using Nat.strong_induction_on with
  | _ n ih =>
    rw [Nat.toDigits_eq_if (by norm_num)]
    split
    · rename_i h
      simp [decimal, Nat.toNat_digitChar_sub_48_of_lt_ten h]
    · rename_i h
      have := ih (n / 10) (by omega)
      unfold decimal at this ⊢
      rw [List.foldl_append, this]
      simp only [List.foldl_cons, List.foldl_nil]
      rw [Nat.toNat_digitChar_sub_48_of_lt_ten (Nat.mod_lt _ (by norm_num))]
      omega

theorem mem_outputFolders (join : Str → Str) (k i : ℕ) (s : Str) (h : s ∈ outputFolders join k i) : ∃ j, i ≤ j ∧ s = (outputFolder join j).1 := by
  induction k generalizing i with
  | zero => simp [outputFolders] at h
  | succ k ih =>
    rw [outputFolders, List.mem_cons] at h
    rcases h with rfl | h
    · exact ⟨i, le_rfl, rfl⟩
    · obtain ⟨j, hj, e⟩ := ih _ h
      exact ⟨j, by simp [outputFolder] at hj; omega, e⟩

/-- **C98**: in a given folder, the output of each MC sample goes to a folder of its own, with a slash at the end. -/
theorem C98_folders (join : Str → Str) (hj : Function.Injective join) (hs : ∀ s, (join s).getLast? ≠ some '/') (k i : ℕ) :
    (outputFolders join k i).Nodup ∧ (outputFolders join k i).length = k ∧ ∀ s ∈ outputFolders join k i, s.getLast? = some '/' := by
  have hinj : ∀ a b, (outputFolder join a).1 = (outputFolder join b).1 → a = b := by
    intro a b h
    simp only [outputFolder, if_neg (hs _)] at h
    have := hj (List.append_cancel_right h)
    rw [← decimal_toDigits a, this, decimal_toDigits]
  refine ⟨?_, ?_, ?_⟩
  · induction k generalizing i with
    | zero => simp [outputFolders]
    | succ k ih =>
      rw [outputFolders, List.nodup_cons]
      refine ⟨fun h => ?_, ih _⟩
      obtain ⟨j, hij, e⟩ := mem_outputFolders join k _ _ h
      have := hinj _ _ e
      simp [outputFolder] at hij
      omega
  · induction k generalizing i with
    | zero => rfl
    | succ k ih => rw [outputFolders, List.length_cons, ih]
  · intro s h
    obtain ⟨j, -, rfl⟩ := mem_outputFolders join k i s h
    simp [outputFolder, if_neg (hs _)]

example : outputFolders (fun s => str "/t/" ++ s) 2 9 = [str "/t/9/", str "/t/10/"] := by decide +kernel

/-! ## C95 -/

section
open Spmd Prog
variable {E G : Type} {p : ℕ}

/-- **C95** (partial: not with a generator): with any number of processes, each of them has a generator of its own, made from the seed given, or from the one drawn
by the main process. -/
theorem C95_seeds_partial (drawn : E) (s : Option E) (hp : 0 < p) :
    Runs (fun r : Fin p => getRng (G := G) p drawn (s.elim .none .int) r.val) (fun r => .ok (.child (s.getD drawn) r.val)) ∧
    ∀ r r' : Fin p, (Rng.child (s.getD drawn) r.val : Rng E G) = .child (s.getD drawn) r'.val → r = r' := by
  refine ⟨?_, fun r r' h => by injection h with _ h; exact Fin.ext h⟩
  have he : ∀ r : ℕ, getRng (G := G) p drawn (s.elim .none .int) r =
      let children : List (E × ℕ) := (List.range p).map fun i => (s.getD drawn, i)
      if p ≤ 1 then (match children[0]? with
        | some c => ret (.child c.1 c.2)
        | none => raise .indexError)
      else (do
        let cs ← share 0 (if r = 0 then some children else none)
        (match cs.bind (·[r]?) with
          | some c => ret (.child c.1 c.2)
          | none => raise .valueError)) := by
    intro r
    cases s <;> rfl
  have he' : (fun r : Fin p => getRng (G := G) p drawn (s.elim .none .int) r.val) = fun r : Fin p =>
      let children : List (E × ℕ) := (List.range p).map fun i => (s.getD drawn, i)
      if p ≤ 1 then (match children[0]? with
        | some c => ret (.child c.1 c.2)
        | none => raise .indexError)
      else (do
        let cs ← share 0 (if r.val = 0 then some children else none)
        (match cs.bind (·[r.val]?) with
          | some c => ret (.child c.1 c.2)
          | none => raise .valueError)) := funext fun r => he r.val
  rw [he']
  by_cases h1 : p ≤ 1
  · have hp1 : p = 1 := by omega
    subst hp1
    have : ∀ r : Fin 1, r.val = 0 := fun r => by omega
    simp only [h1, if_true, this]
    exact Runs.ret _
  · simp only [h1, if_false]
    refine Runs.bind (runs_share ⟨0, hp⟩ (fun r : Fin p => if r.val = 0 then some ((List.range p).map fun i => (s.getD drawn, i)) else none)) ?_
    have : (fun r : Fin p => (match (if (⟨0, hp⟩ : Fin p).val = 0 then some ((List.range p).map fun i => (s.getD drawn, i)) else none).bind (·[r.val]?) with
          | some c => (ret (.child c.1 c.2) : Prog MErr (Rng E G))
          | none => raise .valueError)) = fun r : Fin p => ret (.child (s.getD drawn) r.val) := by
      funext r
      simp [r.isLt]
    rw [this]
    exact Runs.ret _

example : Runs (fun r : Fin 3 => getRng (G := Unit) 3 (7 : ℕ) .none r.val) (fun r => .ok (.child 7 r.val)) :=
  (C95_seeds_partial (p := 3) (7 : ℕ) none (by decide)).1

/-- **C95** is false if a generator is passed: all processes use the same one. -/
theorem C95_generator_counterexample (drawn : E) (g : G) (p : ℕ) :
    Runs (fun r : Fin p => getRng p drawn (.gen g) r.val) fun r => .ok (.given g : Rng E G) := Runs.ret _

end

end GPry.McSamp
