import Verif.SetupProps
import Verif.TruthProps
import Verif.GprFitProps
import Verif.CobayaProps
import Verif.McSampProps
import Verif.IoProps
import Verif.PreprocProps

set_option linter.all false

/-!
# Refusals and special cases (C05, C07, C40, C43, C64, C65, C69, C84, C89, C90, C91, C94, C97, C101, C102)

Theorems that single out definitions which the others leave open: which exception is raised, and values at the boundary of the domains.
-/

namespace GPry.Setup

open Cobaya

variable {V : Type} {P : Type}

/-- **C89**: options of the sampler given at initialisation: none, a name, a mapping with at most one entry are accepted, others are refused with
`TypeError`; and what is accepted selects the same sampler with the same options as the same value passed to `generate_mc_sample` later. -/
theorem C89_mc_options (m : MSpec V) :
    (mcOptions m = .error .typeError ↔ m = .other ∨ ∃ d, m = .mapping d ∧ 1 < d.length) ∧
    (∀ e, mcOptions m = .error e → e = .typeError) ∧
    ∀ mc, m ≠ .none → mcOptions m = .ok mc → ∀ (fitted : Bool) mc' nlive addOptions,
      generate fitted mc nlive .none addOptions = generate fitted mc' nlive m addOptions := by
  cases m with
  | none => exact ⟨by simp [mcOptions], fun e h => (by cases h), fun mc h => absurd rfl h⟩
  | str s =>
    refine ⟨by simp [mcOptions], fun e h => (by cases h), fun mc _ h f mc' nl a => ?_⟩
    cases h; rfl
  | mapping d =>
    unfold mcOptions
    by_cases hd : 1 < d.length
    · simp only [hd, if_true]
      refine ⟨by simp [hd], fun e h => (by cases h; rfl), fun mc _ h => (by cases h)⟩
    · simp only [hd, if_false]
      refine ⟨by simp [hd], fun e h => (by cases h), fun mc _ h f mc' nl a => ?_⟩
      cases h; rfl
  | other => exact ⟨by simp [mcOptions], fun e h => (by cases h; rfl), fun mc _ h => (by cases h)⟩

example : mcOptions (.mapping [("mcmc", some [("Rminus1_stop", 1)]), ("nested", none)]) = .error .typeError ∧
    mcOptions (.mapping [("mcmc", some [("Rminus1_stop", 1)])]) = .ok [("mcmc", some [("Rminus1_stop", 1)])] := ⟨rfl, rfl⟩

/-- **C91**: whatever is refused is refused with `TypeError`; a point of the wrong shape changes nothing, in particular not the point stored. -/
theorem C91_refused (logprior : P → Ext ℝ) (s s' : Fid P) (X : P) (okX : Bool) (lp ll : Option Num) (e : SErr)
    (h : setPoint logprior s X okX lp ll = (s', some e)) :
    e = .typeError ∧ s'.logpost = s.logpost ∧ s'.loglike = s.loglike ∧ (okX = false → s' = s) := by
  unfold setPoint at h
  cases okX
  · simp only [Bool.not_false, if_true] at h
    obtain ⟨rfl, he⟩ := Prod.mk.inj h
    exact ⟨(Option.some.inj he).symm, rfl, rfl, fun _ => rfl⟩
  · simp only [Bool.not_true, Bool.false_eq_true, if_false] at h
    rcases lp with _ | _ | _ <;> rcases ll with _ | _ | _ <;> simp only [Prod.mk.injEq, reduceCtorEq, and_false, Option.some.injEq] at h <;>
      (try (obtain ⟨rfl, rfl⟩ := h; exact ⟨rfl, rfl, rfl, fun h => (by cases h)⟩))

example : (setPoint (fun _ : ℝ => (.fin 0 : Ext ℝ)) ⟨none, none, none⟩ 1 false none none).2 = some .typeError ∧
    (setPoint (fun _ : ℝ => (.fin 0 : Ext ℝ)) ⟨none, none, none⟩ 1 false none none).1.logpost = none := by
  obtain ⟨s', e, h⟩ : ∃ s' e, setPoint (fun _ : ℝ => (.fin 0 : Ext ℝ)) ⟨none, none, none⟩ 1 false none none = (s', some e) := ⟨_, _, rfl⟩
  rw [h]
  exact ⟨by rw [(C91_refused _ _ _ _ _ _ _ _ h).1], (C91_refused _ _ _ _ _ _ _ _ h).2.1⟩

/-- **C91**, samples: they are refused, with `TypeError`, exactly if the points have a wrong number of columns, or weights or densities a wrong
length, or both densities are given. -/
theorem C91_sample_refused (logprior : P → Ext ℝ) (s : FidMC P) (X : List P) (okX : Bool) (lp ll : Option (List (Ext ℝ))) (w : Option (List ℝ)) :
    (setMC logprior s X okX lp ll w).2 =
      if okX = false ∨ (∃ w', w = some w' ∧ w'.length ≠ X.length) ∨ (lp.isSome ∧ ll.isSome) ∨ (∃ v, lp = some v ∧ v.length ≠ X.length) ∨
        (∃ v, ll = some v ∧ v.length ≠ X.length) then some .typeError else none := by
  unfold setMC setW
  cases okX
  · simp
  · rcases w with _ | w
    · rcases lp with _ | v <;> rcases ll with _ | v'
      · simp
      · by_cases h : v'.length = X.length <;> simp [h]
      · by_cases h : v.length = X.length <;> simp [h]
      · simp
    · by_cases hw : w.length = X.length
      · rcases lp with _ | v <;> rcases ll with _ | v'
        · simp [hw]
        · by_cases h : v'.length = X.length <;> simp [h, hw]
        · by_cases h : v.length = X.length <;> simp [h, hw]
        · simp [hw]
      · simp [hw]

example : (setMC (fun _ : ℝ => (.fin 0 : Ext ℝ)) ⟨none, none, none, none⟩ [1, 2] true none (some [.fin 3]) (some [1, 1])).2 = some .typeError := by
  rw [C91_sample_refused]
  exact if_pos (.inr (.inr (.inr (.inr ⟨_, rfl, by simp⟩))))

/-- **C90**: without weights and without log-posterior no table can be made (`TypeError`). -/
theorem C90_no_density {K : Type} [One K] (params : List String) (copy : Bool) (d : Dict String (Col K)) (hw : get d "w" = some .none)
    (hy : get d "logpost" = some .none) : lastMc params copy true (some d) = (.error .typeError, some d) := by
  have h1 : toPandas params d = (d, some .typeError) := by
    unfold toPandas fillWeights
    simp [hw, hy, Col.len]
  unfold lastMc
  simp [h1]

example : lastMc ["a"] true true (some [("w", .none), ("X", .mat [[(1 : ℚ)]]), ("logpost", .none)]) =
    (.error .typeError, some [("w", .none), ("X", .mat [[1]]), ("logpost", .none)]) :=
  C90_no_density _ _ _ (by decide +kernel) (by decide +kernel)

end GPry.Setup

namespace GPry.Truth

/-- **C84**: names are accepted iff there is one for each dimension; `TypeError` otherwise. -/
theorem C84_number (d : ℕ) (p : Params) :
    (∃ e, setNames d p = .error e) ↔ setNames d p = .error .typeError ∧ ((∃ l, p = .names l ∧ l.length ≠ d) ∨ ∃ l, p = .labelled l ∧ l.length ≠ d) := by
  cases p with
  | none => simp [setNames]
  | names l => by_cases h : l.length = d <;> simp [setNames, h]
  | labelled l => by_cases h : l.length = d <;> simp [setNames, h]

example : setNames 3 (.labelled [("a", "\\alpha"), ("b", "\\beta")]) = .error .typeError := rfl

/-- **C40** is false if an interval has no width: the prior density is infinite at the points inside, and so is the log-posterior wherever
the likelihood is not zero. -/
theorem C40_width_counterexample (f : Fun (Ext ℝ) (Ext ℝ)) (a b c l : ℝ) (hab : a < b) (x : ℝ) (hx : a ≤ x ∧ x ≤ b)
    (hf : f.call [.vec [.fin x, .fin c]] = .ok (.fin l)) :
    logp ⟨[(.fin a, .fin b), (.fin c, .fin c)], f⟩ [.fin x, .fin c] = ([[.fin x, .fin c]], .ok .posInf) := by
  have hin : Tools.isInBounds [((.fin a : Ext ℝ), .fin b), (.fin c, .fin c)] [.fin x, .fin c] = true := by
    simp [Tools.isInBounds, Ext.ge, Ext.le, hx]
  have : logprior ⟨[(.fin a, .fin b), (.fin c, .fin c)], f⟩ [.fin x, .fin c] = .posInf := by
    unfold logprior
    rw [if_pos hin]
    simp [logPriorVolume, log, Ext.sub, hab, add, Ext.neg]
  unfold logp
  dsimp only
  rw [this, hf]
  simp [add]

/-- **C40** if the bounds of a parameter are exchanged: nothing is evaluated. -/
theorem C40_exchanged (t : Truth) (i : ℕ) (a b : ℝ) (hi : t.bounds[i]? = some (.fin a, .fin b)) (h : b < a) (x : List (Ext ℝ))
    (hx : x.length = t.bounds.length) : logp t x = ([], .ok .negInf) := by
  have hin : Tools.isInBounds t.bounds x = false := by
    by_contra hc
    rw [Bool.not_eq_false] at hc
    obtain ⟨hlt, hi⟩ := List.getElem?_eq_some_iff.1 hi
    have := ((Tools.C46_coordinates t.bounds x hx).1.1 hc) i (hx ▸ hlt)
    rw [hi] at this
    cases hxi : x[i]'(hx ▸ hlt) <;> rw [hxi] at this <;> simp [Ext.le] at this
    linarith
  unfold logp logprior
  simp [hin]

example (t : Truth) (h : t.bounds = [(.fin 0, .fin 1), (.fin 3, .fin 2)]) : logp t [.fin 0, .fin 2] = ([], .ok .negInf) :=
  C40_exchanged t 1 3 2 (by rw [h]; rfl) (by norm_num) _ (by rw [h]; rfl)

end GPry.Truth

namespace GPry.GprFit

open Gpr

variable {K : Type} [Field K] [LinearOrder K] {P : Type}

/-- **C102**: without classifier every value counts as finite, even infinite ones; with it, nothing can be asked before it has data. -/
theorem C102_no_classifier (py : PreY K) (s : Svm K) (trained : Bool) (ys : List (Ext K)) (nAll : ℕ) (decision : P → Bool) (xs : List P) :
    isFinite false py s trained ys = .ok (ys.map fun _ => true) ∧ absThreshold false py s = .error .attributeError ∧
    svmIsFinite s false ys = .error .valueError ∧ predictIsFinite true nAll s false decision xs = .error .valueError := ⟨rfl, rfl, rfl, rfl⟩

example : isFinite false (.aff (1 : ℚ) 2) ⟨[], [], false, true, none, none⟩ true [.fin 1, .negInf] = .ok [true, true] :=
  (C102_no_classifier (P := ℕ) _ _ _ _ 0 (fun _ => true) []).1

/-- **C102**: with an infinite threshold and a positive scale the absolute threshold is minus infinity. -/
theorem C102_abs_threshold_infinite [IsStrictOrderedRing K] (m s M : K) (hs : 0 < s) (sv : Svm K) (ht : sv.diffThreshold = some .posInf) (hM : sv.maxY = some (.fin M)) :
    absThreshold true (.aff m s) sv = .ok .negInf := by
  unfold absThreshold
  simp [ht, hM, Ext.sub, invScale, hs.ne', hs.not_gt]

example : absThreshold true (.aff (1 : ℚ) 2) ⟨[], [], false, true, some .posInf, some (.fin 3)⟩ = .ok .negInf :=
  C102_abs_threshold_infinite _ _ 3 (by norm_num) _ rfl rfl

/-- **C101**: a classifier without threshold is refused with `ValueError`, unless there was a reason to raise before. -/
theorem C101_no_threshold (deltaLogp : K → ℕ → K) (lower : String → String) (a : Args K) (f : K) (n : ℕ) (hc : a.clip = some f) (hf : 1 ≤ f)
    (hd : a.dim = some n) (hi : a.inf ≠ .no) (ht : a.thr = none) : init deltaLogp lower a = .error .valueError := by
  have hk : ∃ m, a.keep = .ok m := by
    unfold Args.keep Args.d
    rw [hd]
    cases a.keepMin <;> simp
  obtain ⟨m, hm⟩ := hk
  have h2 : a.threshold deltaLogp = .error .valueError := by
    unfold Args.threshold
    rw [ht]
    cases h : a.inf <;> simp_all
  unfold init
  simp [hc, not_lt.2 hf, hm, h2]

example (deltaLogp : ℚ → ℕ → ℚ) (lower : String → String) (a : Args ℚ) (h1 : a.clip = some 1.1) (h2 : a.dim = some 2) (h3 : a.inf ≠ .no) (h4 : a.thr = none) :
    init deltaLogp lower a = .error .valueError := C101_no_threshold _ _ _ _ _ h1 (by norm_num) h2 h3 h4

end GPry.GprFit

namespace GPry.Cobaya

variable {A : Type*}

/-- **C69**: options of the engine that are a (non-empty) string raise `ValueError`. -/
theorem C69_string_refused (engine : Str) (k : Str) (ks : List Str) (d : Dict Str (Val A)) (c : Char) (s : Str) (hk : isOptions k = true)
    (hf : isFor engine k = true) (hg : get d k = some (.str (c :: s))) : mergeLoop engine (k :: ks) d = .error .valueError := by
  rw [mergeLoop.eq_def]
  simp [hk, hf, hg]

example : mergeLoop (A := ℕ) (str "NORA") [str "options_NORA"] [(str "options_NORA", .str (str "all"))] = .error .valueError :=
  C69_string_refused _ _ _ _ 'a' (str "ll") (by decide +kernel) (by decide +kernel) rfl

/-- **C64**: matching only the beginning does not help: files of other folders are not found, and in the folder exactly those whose
names begin with that of a pattern. -/
theorem C64_prefix (dir dir' name : Str) :
    ∃ ps, checkpointPatterns (some dir) = .ok ps ∧ (cobayaFindsPrefix ps dir' name = true ↔ dir' = dir ∧ ∃ p ∈ patterns, p <+: name) := by
  refine ⟨_, rfl, ?_⟩
  simp only [cobayaFindsPrefix, List.any_eq_true, List.mem_map, Bool.and_eq_true, decide_eq_true_eq, List.isPrefixOf_iff_prefix]
  constructor
  · rintro ⟨q, ⟨p, hp, rfl⟩, h1, h2⟩
    exact ⟨h1.symm, p, hp, h2⟩
  · rintro ⟨rfl, p, hp, h2⟩
    exact ⟨_, ⟨p, hp, rfl⟩, rfl, h2⟩

example : ∃ ps, checkpointPatterns (some (str "out")) = .ok ps ∧ cobayaFindsPrefix ps (str "out") (str "gpr.pkl.bak") = true ∧
    cobayaFindsPrefix ps (str "other") (str "gpr.pkl.bak") = false := ⟨_, rfl, by decide +kernel, by decide +kernel⟩

/-- **C65**: without any bounds there is no model. -/
theorem C65_no_bounds (d : ℕ) (mean : List ℝ → Ext ℝ) (params : Option (List String)) :
    generateModel none d mean none params = .error .valueError := rfl

example : generateModel none 2 (fun _ => .fin 0) none (some ["a", "b"]) = .error .valueError := C65_no_bounds _ _ _

end GPry.Cobaya

namespace GPry.McSamp

open Cobaya

/-- **C94**: the names with labels: the columns of the parameters have the labels given to them. -/
theorem C94_labels {K : Type} [Sub K] [Neg K] [LinearOrder K] (tol : K) (l : List (String × String)) (bs : List (K × K)) (X : List (List K)) (w : Option (List K))
    (g : GSamples K) (h : toGetdist tol (.labelled l) (some bs) X w none none none = .ok g) :
    g.names.zip g.labels = l ∧ g.rows = X := by
  unfold toGetdist at h
  simp only [List.foldl_cons, List.foldl_nil, addColumn] at h
  rw [← Except.ok.inj h]
  refine ⟨?_, rfl⟩
  simp only [PNames.names, PNames.labels]
  clear h
  induction l with
  | nil => rfl
  | cons q l ih => simp only [List.map_cons, List.zip_cons_cons, ih]

example (g : GSamples ℚ) (h : toGetdist (1 / 100) (.labelled [("a", "\\alpha"), ("b", "\\beta")]) (some [(0, 1), (0, 1)]) [[1 / 2, 1 / 3]] (some [1]) none none none = .ok g) :
    g.names.zip g.labels = [("a", "\\alpha"), ("b", "\\beta")] ∧ g.rows = [[1 / 2, 1 / 3]] := C94_labels _ _ _ _ _ _ h

example : ∃ g, toGetdist (1 / 100 : ℚ) (.labelled [("a", "\\alpha"), ("b", "\\beta")]) (some [(0, 1), (0, 1)]) [[1 / 2, 1 / 3]] (some [1]) none none none = .ok g := ⟨_, rfl⟩

/-- **C94**, what `process_gdsamples` accepts: paths and GetDist samples only, whether Cobaya is installed or not. The refusal is `ValueError` only
if Cobaya is not installed. -/
theorem C94_sources (cobayaInstalled : Bool) (s : GdSource) :
    (processGd cobayaInstalled s = .ok () ↔ s = .path ∨ s = .getdist) ∧
    (s = .cobaya ∨ s = .other → processGd cobayaInstalled s = .error (if cobayaInstalled then .nameError else .valueError)) := by
  cases s <;> cases cobayaInstalled <;> simp [processGd]

example : processGd true .path = .ok () ∧ processGd true .cobaya = .error .nameError ∧ processGd false .other = .error .valueError :=
  ⟨(C94_sources _ _).1.2 (.inl rfl), (C94_sources _ _).2 (.inl rfl), (C94_sources _ _).2 (.inr rfl)⟩

/-- **C97**: settings of PolyChord given as numbers with units, such as `10d`, are parsed: all but the precision itself. -/
theorem C97_units (s : Sampler) (q : String × String × Bool) (h : q ∈ precisionNames s) : q.2.2 = true ↔ q.1 ≠ "precision_criterion" := by
  cases s <;> simp only [precisionNames, List.mem_cons, List.not_mem_nil, or_false] at h <;>
    rcases h with rfl | h <;> (try decide) <;> (try (rcases h with rfl | h <;> (try decide))) <;>
    (try (rcases h with rfl | h <;> (try decide))) <;> (try (rcases h with rfl | h <;> (try decide))) <;> (try (subst h; decide))

example (s : Sampler) (b : Bool) (h : ("precision_criterion", "x", b) ∈ precisionNames s) : b = false := by
  cases b with
  | false => rfl
  | true => exact absurd rfl ((C97_units s _ h).1 rfl)

end GPry.McSamp

namespace GPry.Io

/-- **C43**: without truth passed and without its file, reading a checkpoint raises `FileNotFoundError`. -/
theorem C43_no_truth {V T : Type} (C : Codec V) (getTruth : V → Except Err T) (d : Dir) (h : d .truth = none) :
    read C getTruth d none = .error .fileNotFound := by
  unfold read
  have : readTruth C getTruth d ((check d).getD 0 false) none = .error .fileNotFound := by
    unfold readTruth loadFile
    rw [h]
  simp only [this]
  rfl

example {V : Type} (C : Codec V) : read C (fun _ : V => (.ok 1 : Except Err ℕ)) (fun _ => none) none = .error .fileNotFound := C43_no_truth _ _ _ rfl

end GPry.Io

namespace GPry.Pre

variable {K : Type*} [Field K] [LinearOrder K] [IsStrictOrderedRing K] {d : ℕ}

/-- **C05**: `inverse_transform_scale` gives the lengths of differences of points. -/
theorem C05_scale (b : NormBounds d K) (z δ : Fin d → K) :
    (fun i => b.inverse (fun j => z j + δ j) i - b.inverse z i) = b.inverseScale δ := by
  funext i
  simp only [NormBounds.inverse, NormBounds.inverseScale]
  ring

example (b : NormBounds 2 ℚ) : (fun i => b.inverse (fun j => ![1 / 2, 1 / 3] j + ![1 / 10, 0] j) i - b.inverse ![1 / 2, 1 / 3] i) = b.inverseScale ![1 / 10, 0] :=
  C05_scale b _ _

/-- **C05**: refused bounds are refused with `TypeError` (though a `ValueError` is intended). -/
theorem C05_refused_type (old : Option (NormBounds d K)) (lo hi : Fin d → K) (i : Fin d) (h : hi i < lo i) :
    (NormBounds.update old lo hi).2 = some .typeError := by
  have : ((List.finRange d).any fun i => decide (hi i < lo i)) = true := by
    rw [List.any_eq_true]
    exact ⟨i, List.mem_finRange i, by simpa using h⟩
  simp [NormBounds.update, this]

/-- **C07**: before the first fit nothing can be transformed back (`TypeError`). -/
theorem C07_unfitted (y : K) : inverseY (.unfitted : Gpr.PreY K) y = .error .typeError ∧ inverseScaleY (.unfitted : Gpr.PreY K) y = .error .typeError := ⟨rfl, rfl⟩

example : (NormBounds.update (K := ℚ) (d := 2) none ![0, 1] ![3, 0]).2 = some .typeError := C05_refused_type _ _ _ 1 (by norm_num)

end GPry.Pre
