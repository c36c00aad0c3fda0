import Verif.Cobaya
import Verif.TruthProps

set_option linter.all false

/-! # The interface to Cobaya: C64, C65, C69, C86 -/

namespace GPry.Cobaya

open GPry

/-! ## Files -/

/-- **C64** is false: for every output prefix the file of the truth is matched by no pattern (not even its beginning). -/
theorem C64_truth_counterexample (dir : Str) :
    ∃ ps, checkpointPatterns (some dir) = .ok ps ∧ ∀ dir', cobayaFinds ps dir' (fileName .truth) = false ∧
      cobayaFindsPrefix ps dir' (fileName .truth) = false := by
  refine ⟨_, rfl, fun dir' => ?_⟩
  constructor
  · simp only [cobayaFinds, List.any_eq_false, List.mem_map]
    rintro q ⟨p, hp, rfl⟩
    have : p ≠ fileName .truth := by
      intro h; rw [h] at hp; revert hp; decide +kernel
    simp [this]
  · simp only [cobayaFindsPrefix, List.any_eq_false, List.mem_map]
    rintro q ⟨p, hp, rfl⟩
    have : p.isPrefixOf (fileName .truth) = false := by
      have hall : ∀ p ∈ patterns, p.isPrefixOf (fileName .truth) = false := by decide +kernel
      exact hall p hp
    simp [this]

/-- **C64** (partial: without the file of the truth, and with an output): exactly the other files of a checkpoint are found, in the
folder of the checkpoint and in no other. -/
theorem C64_files_partial (dir : Str) :
    ∃ ps, checkpointPatterns (some dir) = .ok ps ∧ ∀ dir' f, cobayaFinds ps dir' (fileName f) = true ↔ dir' = dir ∧ f ≠ .truth := by
  refine ⟨_, rfl, fun dir' f => ?_⟩
  have hall : ∀ f : Io.File, f ≠ .truth → fileName f ∈ patterns := by
    intro f hf; cases f <;> first | exact absurd rfl hf | decide +kernel
  have hno : fileName .truth ∉ patterns := by decide +kernel
  simp only [cobayaFinds, List.any_eq_true, List.mem_map, Bool.and_eq_true, decide_eq_true_eq]
  constructor
  · rintro ⟨q, ⟨p, hp, rfl⟩, h1, h2⟩
    refine ⟨h1.symm, ?_⟩
    rintro rfl
    dsimp only at h2
    exact hno (h2 ▸ hp)
  · rintro ⟨rfl, hf⟩
    exact ⟨_, ⟨_, hall f hf, rfl⟩, rfl, rfl⟩

/-- Without output the listing raises. -/
theorem C64_no_output_counterexample : checkpointPatterns none = .error .typeError := rfl

example : ∃ ps, checkpointPatterns (some (str "chains/run_gpry_output")) = .ok ps ∧ ps.length = 6 := ⟨_, rfl, rfl⟩

/-! ## Dictionaries -/

section dict

variable {κ V : Type*} [DecidableEq κ]

theorem get_nil (k : κ) : get ([] : Dict κ V) k = none := rfl

theorem get_cons (q : κ × V) (d : Dict κ V) (k : κ) : get (q :: d) k = if q.1 = k then some q.2 else get d k := by
  unfold get
  by_cases h : q.1 = k <;> simp [h]

theorem get_none (d : Dict κ V) (k : κ) : get d k = none ↔ k ∉ d.map Prod.fst := by
  induction d with
  | nil => simp [get_nil]
  | cons q d ih =>
    rw [get_cons]
    by_cases h : q.1 = k
    · simp [h]
    · simp only [h, if_false, ih, List.map_cons, List.mem_cons, not_or]
      exact ⟨fun h2 => ⟨fun e => h e.symm, h2⟩, fun h2 => h2.2⟩

theorem get_append (d e : Dict κ V) (k : κ) : get (d ++ e) k = (get d k).or (get e k) := by
  induction d with
  | nil => simp [get_nil]
  | cons q d ih =>
    rw [List.cons_append, get_cons, get_cons, ih]
    by_cases h : q.1 = k <;> simp [h]

theorem get_put (d : Dict κ V) (q : κ × V) (k : κ) : get (put d q) k = if q.1 = k then some q.2 else get d k := by
  unfold put
  by_cases hm : q.1 ∈ d.map Prod.fst
  · rw [if_pos hm]
    induction d with
    | nil => simp at hm
    | cons r d ih =>
      rw [List.map_cons, get_cons, get_cons]
      by_cases hr : r.1 = q.1
      · simp only [hr, if_true]
        by_cases hk : q.1 = k
        · simp [hk]
        · simp only [hk, if_false]
          by_cases hm2 : q.1 ∈ d.map Prod.fst
          · rw [ih hm2]; simp [hk]
          · have : (d.map fun r => if r.1 = q.1 then (r.1, q.2) else r) = d := by
              conv_rhs => rw [← List.map_id d]
              apply List.map_congr_left
              intro r hr
              have : r.1 ≠ q.1 := fun e => hm2 (e ▸ List.mem_map_of_mem hr)
              simp [this]
            rw [this]
      · have hm2 : q.1 ∈ d.map Prod.fst := by
          rcases List.mem_cons.1 hm with h | h
          · exact absurd h.symm hr
          · exact h
        simp only [hr, if_false]
        rw [ih hm2]
        by_cases hk : r.1 = k
        · have : q.1 ≠ k := fun e => hr (hk.trans e.symm)
          simp [hk, this]
        · simp [hk]
  · rw [if_neg hm, get_append, get_cons, get_nil]
    by_cases hk : q.1 = k
    · have : get d k = none := (get_none d k).2 (hk ▸ hm)
      simp [hk, this]
    · simp [hk]

theorem get_update (d e : Dict κ V) (k : κ) (hnd : (e.map Prod.fst).Nodup) : get (update d e) k = (get e k).or (get d k) := by
  induction e generalizing d with
  | nil => simp [update, get_nil]
  | cons q e ih =>
    rw [List.map_cons, List.nodup_cons] at hnd
    have : update d (q :: e) = update (put d q) e := rfl
    rw [this, ih _ hnd.2, get_put, get_cons]
    by_cases h : q.1 = k
    · have : get e k = none := (get_none e k).2 (h ▸ hnd.1)
      simp [h, this]
    · simp [h]

theorem get_pop (d : Dict κ V) (k k' : κ) : get (pop d k') k = if k' = k then none else get d k := by
  induction d with
  | nil => simp [pop, get_nil]
  | cons q d ih =>
    unfold pop at ih ⊢
    by_cases h : q.1 = k'
    · rw [List.filter_cons_of_neg (by simp [h]), ih, get_cons]
      by_cases h2 : k' = k
      · simp [h2]
      · have : q.1 ≠ k := fun e => h2 (h.symm.trans e)
        simp [h2, this]
    · rw [List.filter_cons_of_pos (by simp [h]), get_cons, get_cons, ih]
      by_cases h2 : k' = k
      · have : q.1 ≠ k := fun e => h (e.trans h2.symm)
        simp [h2, this]
      · simp [h2]

theorem update_nil (e : Dict κ V) (hnd : (e.map Prod.fst).Nodup) : update [] e = e := by
  have main : ∀ (e d : Dict κ V), ((d ++ e).map Prod.fst).Nodup → update d e = d ++ e := by
    intro e
    induction e with
    | nil => intro d _; simp [update]
    | cons q e ih =>
      intro d h
      have h1 : update d (q :: e) = update (put d q) e := rfl
      have h2 : put d q = d ++ [q] := by
        unfold put
        rw [if_neg]
        intro hm
        rw [List.map_append, List.nodup_append] at h
        exact h.2.2 _ hm _ (by simp) rfl
      rw [h1, h2, ih _ (by simpa using h)]
      simp
  simpa using main e [] (by simpa using hnd)

end dict

/-! ## The model of the surrogate -/

theorem mapM_get_zip (ps : List String) (x : List ℝ) (hnd : ps.Nodup) (hlen : ps.length = x.length) : ps.mapM (get (ps.zip x)) = some x := by
  have main : ∀ (ps : List String) (x : List ℝ), ps.length = x.length → ∀ (d : Dict String ℝ), ps.Nodup → (∀ p ∈ ps, p ∉ d.map Prod.fst) →
      ps.mapM (get (d ++ ps.zip x)) = some x := by
    intro ps
    induction ps with
    | nil => intro x h d _ _; cases x with
      | nil => rfl
      | cons a x => simp at h
    | cons p ps ih =>
      intro x h d hn hd
      cases x with
      | nil => simp at h
      | cons a x =>
        rw [List.nodup_cons] at hn
        have h1 : get (d ++ (p :: ps).zip (a :: x)) p = some a := by
          rw [get_append, (get_none d p).2 (hd p (by simp)), List.zip_cons_cons, get_cons]
          simp
        have h2 := ih x (by simpa using h) (d ++ [(p, a)]) hn.2 (by
          intro q hq
          simp only [List.map_append, List.map_cons, List.map_nil, List.mem_append, List.mem_singleton, not_or]
          exact ⟨hd q (by simp [hq]), fun e => hn.1 (e ▸ hq)⟩)
        rw [List.mapM_cons, h1]
        have h3 : d ++ (p :: ps).zip (a :: x) = (d ++ [(p, a)]) ++ ps.zip x := by simp
        rw [h3, h2]
        rfl
  simpa using main ps x hlen [] hnd (by simp)

theorem addFin_addFin (e : Ext ℝ) (a b : ℝ) (h : a + b = 0) : (e.addFin a).addFin b = e := by
  cases e <;> simp [Ext.addFin]
  linarith

/-- The point is within the bounds. -/
def Inside (b : Bounds) (x : List ℝ) : Prop := List.Forall₂ (fun (q : ℝ × ℝ) v => q.1 ≤ v ∧ v ≤ q.2) b x

theorem generate_ok (b g : Bounds) (d : ℕ) (mean : List ℝ → Ext ℝ) (bounds : Option BArg) (params : Option (List String))
    (hb : useBounds (some g) bounds = .ok (.array b)) (hbd : b.length = d) (ps : List String) (hps : useParams d params = .ok ps)
    (hnd : ps.Nodup) (hl : ps.length = d) :
    ∃ m, generateModel (some g) d mean bounds params = .ok m ∧ m.priors = ps.zip b ∧ m.inputParams = ps ∧
      ∀ x : List ℝ, x.length = d →
        (Inside b x → m.logpost x = .ok (mean x)) ∧ (¬ Inside b x → m.logpost x = .ok .negInf) := by
  have hz : (ps.zip b).map Prod.fst = ps := List.map_fst_zip (by omega)
  have hz2 : (ps.zip b).map Prod.snd = b := List.map_snd_zip (by omega)
  have hpri : update [] (ps.zip b) = ps.zip b := update_nil _ (by rw [hz]; exact hnd)
  refine ⟨{ priors := ps.zip b, inputParams := ps, lkl := lkl mean ps (b.map fun q => Real.log (q.2 - q.1)).sum }, ?_, rfl, rfl, ?_⟩
  · unfold generateModel
    rw [hb]
    dsimp only
    rw [hps]
    dsimp only [logVolume, BArg.rows]
    rw [hpri]
  · intro x hx
    have hin : Model.inside { priors := ps.zip b, inputParams := ps, lkl := lkl mean ps (b.map fun q => Real.log (q.2 - q.1)).sum } x ↔ Inside b x := by
      unfold Model.inside Inside
      dsimp only
      conv_rhs => rw [← hz2]
      rw [List.forall₂_map_left_iff]
    have hsum : (b.map fun q => Real.log (q.2 - q.1)).sum + ((ps.zip b).map fun q => - Real.log (q.2.2 - q.2.1)).sum = 0 := by
      have h1 : ((ps.zip b).map fun q => - Real.log (q.2.2 - q.2.1)) = (b.map fun q => - Real.log (q.2 - q.1)) := by
        conv_rhs => rw [← hz2, List.map_map]
        rfl
      rw [h1]
      have : ∀ l : Bounds, (l.map fun q => Real.log (q.2 - q.1)).sum + (l.map fun q => - Real.log (q.2 - q.1)).sum = 0 := by
        intro l
        induction l with
        | nil => simp
        | cons q l ih => simp only [List.map_cons, List.sum_cons]; linarith
      exact this b
    constructor
    · intro h
      unfold Model.logpost
      rw [if_pos (hin.2 h)]
      dsimp only
      rw [hz]
      unfold lkl
      rw [mapM_get_zip ps x hnd (by omega)]
      dsimp only
      rw [addFin_addFin _ _ _ hsum]
    · intro h
      unfold Model.logpost
      rw [if_neg (fun h' => h (hin.1 h'))]

/-- **C65** (partial: bounds not passed, or passed as an array; different names): the log-posterior of the Cobaya model of the surrogate is the
mean of the surrogate within the bounds, in the order of the parameters, and minus infinity outside; each parameter has its prior. -/
theorem C65_model_partial (g : Bounds) (mean : List ℝ → Ext ℝ) (bounds : Option Bounds) (params : Option (List String))
    (hb : ∀ b, bounds = some b → b.length = g.length) (hp : ∀ ps, params = some ps → ps.length = g.length ∧ ps.Nodup) :
    ∃ m, generateModel (some g) g.length mean (bounds.map .array) params = .ok m ∧
      m.priors = (params.getD (Truth.generic "x_" g.length)).zip (bounds.getD g) ∧
      ∀ x : List ℝ, x.length = g.length →
        (Inside (bounds.getD g) x → m.logpost x = .ok (mean x)) ∧ (¬ Inside (bounds.getD g) x → m.logpost x = .ok .negInf) := by
  have h1 : useBounds (some g) (bounds.map .array) = .ok (.array (bounds.getD g)) := by
    cases bounds with
    | none => rfl
    | some b => simp [useBounds, BArg.rows, hb b rfl]
  have h2 : useParams g.length params = .ok (params.getD (Truth.generic "x_" g.length)) := by
    cases params with
    | none => rfl
    | some ps => simp [useParams, (hp ps rfl).1]
  have h3 : (params.getD (Truth.generic "x_" g.length)).Nodup ∧ (params.getD (Truth.generic "x_" g.length)).length = g.length := by
    cases params with
    | none => exact ⟨Truth.generic_nodup _ _, by simp [Truth.generic]⟩
    | some ps => exact ⟨(hp ps rfl).2, (hp ps rfl).1⟩
  have h4 : (bounds.getD g).length = g.length := by
    cases bounds with
    | none => rfl
    | some b => exact hb b rfl
  obtain ⟨m, hm, hm1, _, hm3⟩ := generate_ok (bounds.getD g) g g.length mean _ params h1 h4 _ h2 h3.1 h3.2
  exact ⟨m, hm, hm1, hm3⟩

/-- **C65** is false for bounds passed as documented, as a list: the function raises. -/
theorem C65_list_counterexample (g b : Bounds) (mean : List ℝ → Ext ℝ) (hb : b.length = g.length) :
    generateModel (some g) g.length mean (some (.list b)) none = .error .typeError := by
  simp [generateModel, useBounds, useParams, BArg.rows, hb, logVolume]

/-- **C65** is false for repeated names: the model has a single parameter. -/
theorem C65_repeated_counterexample (mean : List ℝ → Ext ℝ) (a b c e : ℝ) :
    ∃ m, generateModel (some [(a, b), (c, e)]) 2 mean none (some ["x", "x"]) = .ok m ∧ m.priors = [("x", c, e)] := by
  refine ⟨_, rfl, ?_⟩
  simp [update, put, BArg.rows]

/-- Wrong numbers of bounds or names are refused. -/
theorem C65_refused (g : Bounds) (mean : List ℝ → Ext ℝ) (b : BArg) (params : Option (List String)) (bounds : Option BArg) (ps : List String) :
    (b.rows.length ≠ g.length → generateModel (some g) g.length mean (some b) params = .error .valueError) ∧
    ((∀ b', bounds = some b' → b'.rows.length = g.length) → ps.length ≠ g.length →
      generateModel (some g) g.length mean bounds (some ps) = .error .valueError) := by
  constructor
  · intro h; simp [generateModel, useBounds, h]
  · intro h1 h2
    cases bounds with
    | none => simp [generateModel, useBounds, useParams, h2]
    | some b' => simp [generateModel, useBounds, useParams, h2, h1 b' rfl]

/-- Two parameters with different priors, a surrogate that is infinite in a part. -/
example : ∃ m, generateModel (some [(0, 1), (0, 2)]) 2 (fun x => if x.headD 0 = 0 then .negInf else .fin (x.headD 0 - x.getLastD 0))
      (some (.array [(0, 1), (1, 2)])) (some ["a", "b"]) = .ok m ∧
    m.logpost [1, 2] = .ok (.fin (-1)) ∧ m.logpost [0, 2] = .ok .negInf ∧ m.logpost [1, 0] = .ok .negInf := by
  obtain ⟨m, h, _, h2⟩ := C65_model_partial [(0, 1), (0, 2)] (fun x => if x.headD 0 = 0 then .negInf else .fin (x.headD 0 - x.getLastD 0))
    (some [(0, 1), (1, 2)]) (some ["a", "b"]) (by simp) (by simp)
  refine ⟨m, h, ?_, ?_, ?_⟩
  · rw [(h2 [1, 2] rfl).1 (by simp [Inside])]; norm_num
  · rw [(h2 [0, 2] rfl).1 (by simp [Inside])]; norm_num
  · rw [(h2 [1, 0] rfl).2 (by simp [Inside])]

/-! ## Options -/

variable {A : Type*}

/-- **C69** is false: whatever the input, no `Runner` is ever created (the argument `model` is not one of its parameters). -/
theorem C69_runner_counterexample {R : Type*} (runner : Dict Str (Val A) → Str × Dict Str (Val A) → Except CErr R)
    (gpr acq : Option (Dict Str (Option (Val A)))) :
    (∃ e, initWrapper runner gpr acq = .error e) ∧
    ∀ a, acquisition acq = .ok a → initWrapper runner gpr acq = .error .logged := by
  have h : pyCall runnerKeywords runnerParams (runner (clean gpr) (([], []) : Str × Dict Str (Val A))) = .error .typeError := by
    unfold pyCall
    rw [if_neg (by decide +kernel)]
  have hk : (runnerKeywords.all fun k => decide (k ∈ runnerParams)) = false := by decide +kernel
  have h2 : ∀ a, acquisition acq = .ok a → initWrapper runner gpr acq = .error .logged := by
    intro a ha
    unfold initWrapper
    rw [ha]
    simp [pyCall, hk]
  refine ⟨?_, h2⟩
  cases ha : acquisition acq with
  | error e => exact ⟨e, by unfold initWrapper; rw [ha]⟩
  | ok a => exact ⟨_, h2 a ha⟩

theorem get_clean (d : Dict Str (Option (Val A))) (k : Str) (hnd : (d.map Prod.fst).Nodup) : get (clean (some d)) k = (get d k).join := by
  unfold clean
  rw [Option.getD_some]
  induction d with
  | nil => rfl
  | cons q d ih =>
    rw [List.map_cons, List.nodup_cons] at hnd
    rw [get_cons]
    by_cases hk : q.1 = k
    · rw [if_pos hk]
      cases hq : q.2 with
      | none =>
        rw [List.filterMap_cons_none (by simp [hq]), ih hnd.2]
        rw [(get_none d k).2 (hk ▸ hnd.1)]
        rfl
      | some v =>
        rw [List.filterMap_cons_some (b := (q.1, v)) (by simp [hq]), get_cons, if_pos hk]
        rfl
    · rw [if_neg hk]
      cases hq : q.2 with
      | none => rw [List.filterMap_cons_none (by simp [hq]), ih hnd.2]
      | some v => rw [List.filterMap_cons_some (b := (q.1, v)) (by simp [hq]), get_cons, if_neg hk, ih hnd.2]

/-- **C69** (partial: values that are not null): the options of the regressor are kept as they are; a null (documented for `clip_factor` to
disable it) is as if it had not been given. -/
theorem C69_gpr_partial (d : Dict Str (Option (Val A))) (k : Str) (hnd : (d.map Prod.fst).Nodup) :
    (∀ v, get d k = some (some v) → get (clean (some d)) k = some v) ∧ (get d k = some none → get (clean (some d)) k = none) ∧
    (get d k = none → get (clean (some d)) k = none) := by
  rw [get_clean d k hnd]
  exact ⟨fun v h => by rw [h]; rfl, fun h => by rw [h]; rfl, fun h => by rw [h]; rfl⟩

/-- The dictionaries of options for an engine. -/
def optionsFor (engine : Str) (d : Dict Str (Val A)) (ks : List Str) : List (Dict Str A) :=
  ks.filterMap fun k => if isOptions k && isFor engine k then
    match get d k with
    | some (.dict o) => some o
    | _ => none
  else none

theorem filterMap_congr' {α β : Type*} (f g : α → Option β) (l : List α) (h : ∀ a ∈ l, f a = g a) : l.filterMap f = l.filterMap g := by
  induction l with
  | nil => rfl
  | cons a l ih =>
    rw [List.filterMap_cons, List.filterMap_cons, h a (by simp), ih fun b hb => h b (by simp [hb])]

theorem get_mapOther (o : Dict Str A) (k : Str) : get (o.map fun q => (q.1, Val.other q.2)) k = (get o k).map Val.other := by
  induction o with
  | nil => rfl
  | cons q o ih =>
    rw [List.map_cons, get_cons, get_cons, ih]
    by_cases h : q.1 = k <;> simp [h]

theorem mergeLoop_spec (engine : Str) : ∀ (ks : List Str) (d : Dict Str (Val A)), ks.Nodup →
    (∀ k ∈ ks, isOptions k = true → get d k ≠ none) →
    (∀ k ∈ ks, isOptions k = true → isFor engine k = true → ∃ o, get d k = some (.dict o) ∧ (o.map Prod.fst).Nodup ∧
      ∀ q ∈ o, isOptions q.1 = false) →
    ∃ r, mergeLoop engine ks d = .ok r ∧
      (∀ k, isOptions k = false → get r k = (((optionsFor engine d ks).reverse.findSome? fun o => get o k).map Val.other).or (get d k)) ∧
      (∀ k, isOptions k = true → get r k = if k ∈ ks then none else get d k) := by
  intro ks
  induction ks with
  | nil => intro d _ _ _; exact ⟨d, rfl, fun k _ => by simp [optionsFor], fun k _ => by simp⟩
  | cons k0 ks ih =>
    intro d hnd hin hopt
    rw [List.nodup_cons] at hnd
    by_cases hk0 : isOptions k0 = true
    · -- an entry with options
      have step : ∀ d', (∀ k, isOptions k = true → get d' k = if k0 = k then none else get d k) →
          (optionsFor engine d' ks = optionsFor engine d ks) ∧
          ∃ r, mergeLoop engine ks d' = .ok r ∧
            (∀ k, isOptions k = false → get r k = (((optionsFor engine d ks).reverse.findSome? fun o => get o k).map Val.other).or (get d' k)) ∧
            (∀ k, isOptions k = true → get r k = if k ∈ k0 :: ks then none else get d k) := by
        intro d' hd'
        have hsame : ∀ k ∈ ks, isOptions k = true → get d' k = get d k := by
          intro k hk ho
          rw [hd' k ho, if_neg]
          intro e; exact hnd.1 (e ▸ hk)
        have heq : optionsFor engine d' ks = optionsFor engine d ks := by
          unfold optionsFor
          apply filterMap_congr'
          intro k hk
          by_cases ho : isOptions k = true
          · rw [hsame k hk ho]
          · simp [ho]
        refine ⟨heq, ?_⟩
        obtain ⟨r, hr, h1, h2⟩ := ih d' hnd.2
          (fun k hk ho => by rw [hsame k hk ho]; exact hin k (by simp [hk]) ho)
          (fun k hk ho hf => by rw [hsame k hk ho]; exact hopt k (by simp [hk]) ho hf)
        refine ⟨r, hr, fun k hk => by rw [h1 k hk, heq], fun k hk => ?_⟩
        rw [h2 k hk, hd' k hk]
        by_cases e1 : k ∈ ks
        · simp [e1]
        · by_cases e2 : k0 = k
          · simp [e2]
          · have : k ≠ k0 := fun e => e2 e.symm
            simp [e1, e2, this]
      by_cases hf : isFor engine k0 = true
      · obtain ⟨o, ho, hon, hoo⟩ := hopt k0 (by simp) hk0 hf
        have hget : ∀ k, get (update (pop d k0) (o.map fun q => (q.1, Val.other q.2))) k = ((get o k).map Val.other).or (if k0 = k then none else get d k) := by
          intro k
          rw [get_update _ _ _ (by simpa [List.map_map, Function.comp_def] using hon), get_mapOther, get_pop]
        obtain ⟨_, r, hr, h1, h2⟩ := step (update (pop d k0) (o.map fun q => (q.1, Val.other q.2))) (by
          intro k hk
          rw [hget k]
          have : get o k = none := by
            rw [get_none]
            intro hm
            obtain ⟨q, hq, rfl⟩ := List.mem_map.1 hm
            rw [hoo q hq] at hk
            cases hk
          rw [this]; rfl)
        refine ⟨r, ?_, ?_, h2⟩
        · rw [mergeLoop, if_pos hk0, ho]
          dsimp only
          rw [if_pos hf]
          exact hr
        · intro k hk
          rw [h1 k hk, hget k]
          have hne : k0 ≠ k := by rintro rfl; rw [hk0] at hk; cases hk
          have hcons : optionsFor engine d (k0 :: ks) = o :: optionsFor engine d ks := by
            unfold optionsFor
            rw [List.filterMap_cons_some (b := o)]
            simp [hk0, hf, ho]
          rw [if_neg hne, hcons, List.reverse_cons, List.findSome?_append]
          simp only [List.findSome?_cons, List.findSome?_nil]
          cases (List.findSome? (fun o => get o k) (optionsFor engine d ks).reverse) <;> cases get o k <;> simp
      · obtain ⟨_, r, hr, h1, h2⟩ := step (pop d k0) (by intro k _; rw [get_pop])
        refine ⟨r, ?_, ?_, h2⟩
        · rw [mergeLoop, if_pos hk0]
          cases hg : get d k0 with
          | none => exact absurd hg (hin k0 (by simp) hk0)
          | some v =>
            dsimp only
            rw [if_neg hf]
            exact hr
        · intro k hk
          have hne : k0 ≠ k := by rintro rfl; rw [hk0] at hk; cases hk
          have hcons : optionsFor engine d (k0 :: ks) = optionsFor engine d ks := by
            unfold optionsFor
            rw [List.filterMap_cons_none]
            simp [hf]
          rw [h1 k hk, hcons, get_pop, if_neg hne]
    · obtain ⟨r, hr, h1, h2⟩ := ih d hnd.2 (fun k hk => hin k (by simp [hk])) (fun k hk => hopt k (by simp [hk]))
      refine ⟨r, ?_, ?_, ?_⟩
      · rw [mergeLoop, if_neg hk0]; exact hr
      · intro k hk
        have hcons : optionsFor engine d (k0 :: ks) = optionsFor engine d ks := by
          unfold optionsFor
          rw [List.filterMap_cons_none]
          simp [hk0]
        rw [h1 k hk, hcons]
      · intro k hk
        rw [h2 k hk]
        have : k ≠ k0 := by rintro rfl; exact hk0 hk
        simp [this]

theorem clean_nodup (d : Dict Str (Option (Val A))) (hnd : (d.map Prod.fst).Nodup) : ((clean (some d)).map Prod.fst).Nodup := by
  unfold clean
  rw [Option.getD_some]
  have : ((d.filterMap fun q => q.2.map fun v => (q.1, v)).map Prod.fst).Sublist (d.map Prod.fst) := by
    clear hnd
    induction d with
    | nil => simp
    | cons q d ih =>
      cases hq : q.2 with
      | none => rw [List.filterMap_cons_none (by simp [hq])]; exact (ih.trans (List.sublist_cons_self _ _))
      | some v =>
        rw [List.filterMap_cons_some (b := (q.1, v)) (by simp [hq])]
        exact ih.cons_cons _
  exact this.nodup hnd

/-- **C69** (partial: the engine is a string or not given, the options for it are dictionaries, which do not contain options of engines;
and up to the creation of the `Runner`): of the acquisition, each option that is not null is passed on, those for the engine (of the last matching
entry that has them) taking precedence, and the options of other engines are not. -/
theorem C69_acquisition_partial (d : Dict Str (Option (Val A))) (hnd : (d.map Prod.fst).Nodup) (engine : Str)
    (hen : get d (str "engine") = some (some (.str engine)) ∨ (get d (str "engine")).join.isNone ∧ engine = str "BatchOptimizer")
    (hopt : ∀ k v, get d k = some (some v) → isOptions k = true → isFor engine k = true →
      ∃ o, v = .dict o ∧ (o.map Prod.fst).Nodup ∧ ∀ q ∈ o, isOptions q.1 = false) :
    ∃ r, acquisition (some d) = .ok (engine, r) ∧
      (∀ k, isOptions k = true → get r k = none) ∧
      ∀ k, isOptions k = false → k ≠ str "engine" →
        get r k = (((optionsFor engine (clean (some d)) ((clean (some d)).map Prod.fst)).reverse.findSome? fun o => get o k).map Val.other).or
          (get d k).join := by
  have hcn := clean_nodup d hnd
  have heng : isOptions (str "engine") = false := by decide +kernel
  have hpn : ((pop (clean (some d)) (str "engine")).map Prod.fst).Nodup := by
    exact (List.Sublist.map Prod.fst List.filter_sublist).nodup hcn
  have hg : ∀ k, isOptions k = true → get (pop (clean (some d)) (str "engine")) k = get (clean (some d)) k := by
    intro k hk
    rw [get_pop, if_neg]
    rintro rfl; rw [heng] at hk; cases hk
  have hoF : optionsFor engine (pop (clean (some d)) (str "engine")) ((pop (clean (some d)) (str "engine")).map Prod.fst) =
      optionsFor engine (clean (some d)) ((clean (some d)).map Prod.fst) := by
    have h1 : ∀ ks, optionsFor engine (pop (clean (some d)) (str "engine")) ks = optionsFor engine (clean (some d)) ks := by
      intro ks
      unfold optionsFor
      apply filterMap_congr'
      intro k hk
      by_cases ho : isOptions k = true
      · rw [hg k ho]
      · simp [ho]
    rw [h1]
    generalize clean (some d) = c
    have h2 : ∀ c' : Dict Str (Val A), optionsFor engine c ((pop c' (str "engine")).map Prod.fst) = optionsFor engine c (c'.map Prod.fst) := by
      intro c'
      induction c' with
      | nil => rfl
      | cons q c' ih =>
        unfold pop at ih ⊢
        by_cases hq : q.1 = str "engine"
        · rw [List.filter_cons_of_neg (by simp [hq]), ih]
          unfold optionsFor
          rw [List.map_cons, List.filterMap_cons_none]
          simp [hq, heng]
        · rw [List.filter_cons_of_pos (by simp [hq]), List.map_cons, List.map_cons]
          unfold optionsFor at ih ⊢
          rw [List.filterMap_cons, List.filterMap_cons, ih]
    exact h2 c
  obtain ⟨r, hr, h1, h2⟩ := mergeLoop_spec engine ((pop (clean (some d)) (str "engine")).map Prod.fst) (pop (clean (some d)) (str "engine")) hpn
    (by intro k hk _ h; exact (get_none _ _).1 h hk)
    (by
      intro k hk ho hf
      have h3 : get (clean (some d)) k ≠ none := by
        rw [← hg k ho]
        intro h; exact (get_none _ _).1 h hk
      rw [hg k ho, get_clean d k hnd]
      rw [get_clean d k hnd] at h3
      cases hd : get d k with
      | none => rw [hd] at h3; exact absurd rfl h3
      | some w =>
        cases w with
        | none => rw [hd] at h3; exact absurd rfl h3
        | some v =>
          obtain ⟨o, rfl, ho1, ho2⟩ := hopt k v hd ho hf
          exact ⟨o, rfl, ho1, ho2⟩)
  refine ⟨r, ?_, ?_, ?_⟩
  · unfold acquisition
    dsimp only
    rw [get_clean d _ hnd]
    rcases hen with h | ⟨h, rfl⟩
    · rw [h]
      show (mergeLoop engine _ _).map _ = _
      rw [hr]; rfl
    · rw [Option.isNone_iff_eq_none] at h
      rw [h]
      dsimp only
      rw [hr]; rfl
  · intro k hk
    rw [h2 k hk]
    by_cases hm : k ∈ (pop (clean (some d)) (str "engine")).map Prod.fst
    · rw [if_pos hm]
    · rw [if_neg hm, (get_none _ _).2 hm]
  · intro k hk hke
    rw [h1 k hk, hoF, get_pop, if_neg (fun e => hke e.symm), get_clean d k hnd]

/-- The defaults with the engine NORA and a user's value for one of its options. -/
def exInput : Dict Str (Option (Val ℕ)) :=
  [(str "acq_func", some (.other 1)), (str "verbose", none), (str "engine", some (.str (str "NORA"))),
    (str "options_BatchOptimizer", some (.dict [(str "n_repeats_propose", 10)])), (str "options_NORA", some (.dict [(str "mc_every", 3), (str "acq_func", 2)]))]

example : (exInput.map Prod.fst).Nodup ∧ ∃ r, acquisition (some exInput) = .ok (str "NORA", r) ∧
    r.map Prod.fst = [str "acq_func", str "mc_every"] := by
  refine ⟨by decide +kernel, _, rfl, by decide +kernel⟩

/-! ## Description -/

/-- **C86** is false: with the layout of the defaults, in which the engine is one of the values, it is never recognised. -/
theorem C86_counterexample :
    (∃ r, acquisition (some exInput) = .ok (str "NORA", r)) ∧ isNora (some exInput) = false ∧
    ∀ d : Dict Str (Option (Val A)), (∀ k ∈ d.map Prod.fst, k ∈ [str "acq_func", str "verbose", str "engine"] ∨ isOptions k = true) →
      isNora (some d) = false := by
  refine ⟨⟨_, rfl⟩, by decide +kernel, ?_⟩
  intro d hd
  cases d with
  | nil => rfl
  | cons q d =>
    have := hd q.1 (by simp)
    unfold isNora
    rw [Option.getD_some]
    simp only [decide_eq_false_iff_not]
    intro hl
    rcases this with h | h
    · have hall : ∀ k ∈ [str "acq_func", str "verbose", str "engine"], lower k ≠ str "nora" := by decide +kernel
      exact hall _ h hl
    · have h1 := List.isPrefixOf_iff_prefix.1 h
      have h2 : (str "options_").length ≤ q.1.length := h1.length_le
      have h3 : (lower q.1).length = q.1.length := by simp [lower]
      rw [hl] at h3
      have h4 : (str "nora").length = 4 := by decide +kernel
      have h5 : (str "options_").length = 8 := by decide +kernel
      omega

/-- **C86** (partial: only for the layout that `Runner` takes, in which the engine is the only key). -/
theorem C86_partial (engine : Str) (v : Option (Val A)) : isNora (some [(engine, v)]) = true ↔ lower engine = str "nora" := by
  simp [isNora]

example : ∃ ps, checkpointPatterns (some (str "out")) = .ok ps ∧ cobayaFinds ps (str "out") (fileName .truth) = false ∧ cobayaFinds ps (str "out") (fileName .gpr) = true := by
  obtain ⟨ps, h, hf⟩ := C64_files_partial (str "out")
  exact ⟨ps, h, by rw [← Bool.not_eq_true, hf]; simp, by rw [hf]; simp⟩

example : get (clean (some exInput)) (str "acq_func") = some (.other 1) ∧ get (clean (some exInput)) (str "verbose") = none := by
  have hn : (exInput.map Prod.fst).Nodup := by decide +kernel
  exact ⟨(C69_gpr_partial exInput _ hn).1 _ rfl, (C69_gpr_partial exInput _ hn).2.1 rfl⟩

/-- The options of NORA take precedence over the general ones. -/
example : ∃ r, acquisition (some exInput) = .ok (str "NORA", r) ∧ get r (str "acq_func") = some (.other 2) ∧ get r (str "options_NORA") = none := by
  obtain ⟨r, h, ho, hk⟩ := C69_acquisition_partial exInput (by decide +kernel) (str "NORA") (.inl rfl) (by
    intro k v hkv h1 h2
    rw [Cobaya.get, Option.map_eq_some_iff] at hkv
    obtain ⟨⟨k', v'⟩, hf, rfl⟩ := hkv
    have hk := List.find?_some hf
    have hm := List.mem_of_find?_eq_some hf
    simp only [decide_eq_true_eq] at hk
    subst hk
    simp only [exInput, List.mem_cons, Prod.mk.injEq, List.not_mem_nil, or_false] at hm
    rcases hm with ⟨rfl, -⟩ | ⟨rfl, -⟩ | ⟨rfl, -⟩ | ⟨rfl, -⟩ | ⟨-, h⟩
    · exact absurd h1 (by decide +kernel)
    · exact absurd h1 (by decide +kernel)
    · exact absurd h1 (by decide +kernel)
    · exact absurd h2 (by decide +kernel)
    · exact ⟨_, Option.some.inj h, by decide +kernel, by decide +kernel⟩)
  refine ⟨r, h, ?_, ho _ (by decide +kernel)⟩
  rw [hk _ (by decide +kernel) (by decide +kernel)]
  rfl

example : isNora (A := ℕ) (some [(str "NoRA", none)]) = true := (C86_partial (A := ℕ) _ none).mpr (by decide +kernel)

end GPry.Cobaya
