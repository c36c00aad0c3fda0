import Verif.McCobaya
import Verif.CobayaProps
import Mathlib.Tactic.Linarith
import Mathlib.Tactic.NormNum

set_option linter.all false

/-! # C118: sampling the surrogate with Cobaya -/

namespace GPry.McCobaya

open GPry Cobaya

variable {C V : Type}

/-! ## Verbosity -/

/-- **C118** A higher verbosity never means fewer messages: the level of the log does not grow. -/
theorem C118_level (q q' : ℚ) (n n' : ℕ) (h : logLevel (.num q) = .ok n) (h' : logLevel (.num q') = .ok n') (hq : q ≤ q') : n' ≤ n := by
  unfold logLevel at h h'
  dsimp only at h h'
  split_ifs at h h' <;> simp_all <;> first | (subst h h'; norm_num) | skip
  all_goals first | (exfalso; linarith) | omega

/-- **C118** Between 1 and 3, and from these to what lies outside, a higher verbosity means more messages. -/
theorem C118_level_strict (q q' : ℚ) (n n' : ℕ) (h : logLevel (.num q) = .ok n) (h' : logLevel (.num q') = .ok n') (hq : q < q') (h1 : 1 ≤ q') (h3 : q ≤ 3) : n' < n := by
  unfold logLevel at h h'
  dsimp only at h h'
  split_ifs at h h' <;> simp_all <;> first | (subst h h'; norm_num) | skip
  all_goals first | (exfalso; linarith) | omega

example (n n' : ℕ) (h : logLevel (.num 2) = .ok n) (h' : logLevel (.num 3) = .ok n') : n' < n := C118_level_strict 2 3 n n' h h' (by norm_num) (by norm_num) (by norm_num)

/-- **C118** The verbosities that are understood: `None`, the integers 1 to 3, and the numbers below 1 or above 3. -/
theorem C118_level_ok (v : Verb) :
    (∃ n, logLevel v = .ok n) ↔ v = .none ∨ ∃ q : ℚ, v = .num q ∧ (q < 1 ∨ q = 1 ∨ q = 2 ∨ q = 3 ∨ 3 < q) := by
  cases v with
  | none => simp [logLevel]
  | other => simp [logLevel]
  | num q =>
    simp only [logLevel, Verb.num.injEq, exists_eq_left', reduceCtorEq, false_or]
    by_cases h3 : q = 3
    · simp [h3]
    by_cases hg : 3 < q
    · simp [h3, hg]
    by_cases h2 : q = 2
    · subst h2; norm_num
    by_cases h1 : q = 1
    · subst h1; norm_num
    by_cases hl : q < 1
    · simp [h3, hg, h2, h1, hl]
    · simp [h3, hg, h2, h1, hl]

example : logLevel (.num 0) = .ok 50 ∧ logLevel (.num 4) = .ok 10 ∧ logLevel (.num (5 / 2)) = .error .valueError := by decide +kernel

/-! ## The input of the sampler -/

theorem nodup_user (o : Dict Str V) (h : (o.map Prod.fst).Nodup) : ((o.map fun q => (q.1, (Opt.user q.2 : Opt C V))).map Prod.fst).Nodup := by
  rw [List.map_map]; exact h

theorem get_user (o : Dict Str V) (k : Str) : Cobaya.get (o.map fun q => (q.1, (Opt.user q.2 : Opt C V))) k = (Cobaya.get o k).map Opt.user := by
  induction o with
  | nil => rfl
  | cons q o ih =>
    rw [List.map_cons, get_cons, get_cons, ih]
    split <;> rfl

/-- What has to hold before the sampler is chosen. -/
structure Ready (c : Call C V) (name : Str) (ps : List Str) (debug : ℕ) : Prop where
  installed : c.installed = true
  sampler : c.sampler = some name
  gpr : c.gpr = some true
  model : c.model = .ok ps
  debug : logLevel c.verbose = .ok debug

theorem sample_ready (valid : C → Bool) (c : Call C V) (name : Str) (ps : List Str) (debug : ℕ) (h : Ready c name ps debug) :
    sample valid c = (match blockOf valid name (chooseCov c) ps c.verbose with
      | .error x => .error x
      | .ok d => match Cobaya.get d name with
        | none => .error .keyError
        | some b => .ok { debug := debug, input := put d (name, update b ((c.options.getD []).map fun q => (q.1, .user q.2))),
                          out := c.output.map fun o => (o, c.resume, !c.resume), ran := c.run,
                          info := [(.object, update b ((c.options.getD []).map fun q => (q.1, .user q.2)))] }) := by
  obtain ⟨h1, h2, h3, h4, h5⟩ := h
  simp only [sample, h1, h2, h3, h4, h5]
  rfl

/-- **C118** Whatever is returned was made for a name that is the key of the block passed to Cobaya, and the only one. The options given
override the standard ones, all the others are kept: no measurement of speeds, and for `mcmc` at most 100000 tries. -/
theorem C118_input (valid : C → Bool) (c : Call C V) (r : Built C V) (h : sample valid c = .ok r)
    (hnd : ((c.options.getD []).map Prod.fst).Nodup) :
    ∃ name b, c.sampler = some name ∧ r.input = [(name, b)] ∧
      (∀ k v, Cobaya.get (c.options.getD []) k = some v → Cobaya.get b k = some (.user v)) ∧
      (Cobaya.get (c.options.getD []) (str "measure_speeds") = none → Cobaya.get b (str "measure_speeds") = some (.bool false)) ∧
      (name = str "mcmc" → Cobaya.get (c.options.getD []) (str "max_tries") = none → Cobaya.get b (str "max_tries") = some (.nat 100000)) ∧
      (name ≠ str "mcmc" → ∀ k, k ≠ str "measure_speeds" → Cobaya.get (c.options.getD []) k = none → Cobaya.get b k = none) ∧
      r.ran = c.run ∧ logLevel c.verbose = .ok r.debug := by
  unfold sample at h
  split at h
  · simp at h
  rename_i hi
  split at h <;> try simp at h
  rename_i name hs hg
  split at h <;> try simp at h
  rename_i ps hm
  split at h <;> try simp at h
  rename_i debug hd
  split at h <;> try simp at h
  rename_i d hb
  split at h <;> try simp at h
  rename_i b hget
  subst h
  have hu : ∀ k, Cobaya.get (update b ((c.options.getD []).map fun q => (q.1, (Opt.user q.2 : Opt C V)))) k =
      ((Cobaya.get (c.options.getD []) k).map Opt.user).or (Cobaya.get b k) := by
    intro k
    rw [get_update _ _ _ (nodup_user _ hnd), get_user]
  have main : d = [(name, b)] ∧ Cobaya.get b (str "measure_speeds") = some (.bool false) ∧
      (name = str "mcmc" → Cobaya.get b (str "max_tries") = some (.nat 100000)) ∧
      (name ≠ str "mcmc" → ∀ k, k ≠ str "measure_speeds" → Cobaya.get b k = none) := by
    unfold blockOf at hb
    have hone : ∀ k (b' : Dict Str (Opt C V)), Cobaya.get [(k, b')] name = some b → k = name ∧ b' = b := by
      intro k b' h'
      rw [get_cons, get_nil] at h'
      split at h'
      · rename_i hk; exact ⟨hk, by simpa using h'⟩
      · simp at h'
    split at hb
    · rename_i hl
      split at hb <;> try simp at hb
      rename_i b0 hb0
      subst hb
      obtain ⟨rfl, rfl⟩ := hone _ _ hget
      refine ⟨rfl, ?_⟩
      unfold mcmcBlock at hb0
      split at hb0
      · split at hb0
        · simp at hb0
        · split at hb0 <;> simp at hb0 <;> subst hb0
          · exact ⟨by simp [baseOpts, get_cons, str], fun _ => by simp [baseOpts, get_cons, str], fun hn => absurd rfl hn⟩
          · exact ⟨by simp [covOpts, get_cons, str], fun _ => by simp [covOpts, get_cons, str], fun hn => absurd rfl hn⟩
      · simp at hb0; subst hb0; exact ⟨by simp [covOpts, get_cons, str], fun _ => by simp [covOpts, get_cons, str], fun hn => absurd rfl hn⟩
    · rename_i hl
      split at hb <;> simp at hb <;> subst hb
      · obtain ⟨rfl, rfl⟩ := hone _ _ hget
        exact ⟨rfl, by simp [get_cons], fun hn => absurd hn (by decide), fun _ k hk => by simp [get_cons, get_nil, Ne.symm hk]⟩
      · obtain ⟨-, rfl⟩ := hone _ _ hget
        refine ⟨rfl, by simp [get_cons], fun hn => absurd (hn ▸ (by decide : lower (str "mcmc") = str "mcmc")) hl, fun _ k hk => by simp [get_cons, get_nil, Ne.symm hk]⟩
  obtain ⟨hd1, hms, hmt, hoth⟩ := main
  refine ⟨name, update b ((c.options.getD []).map fun q => (q.1, .user q.2)), hs, ?_, fun k v hk => ?_, fun hk => ?_, fun hn hk => ?_, fun hn k hk ho => ?_, rfl, hd⟩
  · rw [hd1]; simp [put]
  · rw [hu, hk]; rfl
  · rw [hu, hk, hms]; rfl
  · rw [hu, hk, hmt hn]; rfl
  · rw [hu, ho, hoth hn k hk]; rfl

/-- **C118** Names of samplers are not insensitive to case, though they are compared in lower case: those of the two samplers known,
written otherwise, raise `KeyError`. -/
theorem C118_case_counterexample (valid : C → Bool) (c : Call C V) (name : Str) (ps : List Str) (debug : ℕ) (h : Ready c name ps debug)
    (hq : ∃ q, c.verbose = .num q)
    (hl : lower name = str "mcmc" ∧ name ≠ str "mcmc" ∨ lower name = str "polychord" ∧ name ≠ str "polychord") :
    sample valid c = .error .keyError := by
  rw [sample_ready valid c name ps debug h]
  obtain ⟨q, hq⟩ := hq
  rcases hl with ⟨hl, hn⟩ | ⟨hl, hn⟩
  · have : ∃ b, blockOf (V := V) valid name (chooseCov c) ps c.verbose = .ok [(str "mcmc", b)] := by
      have hb : ∃ b, mcmcBlock (V := V) valid (chooseCov c).1 (chooseCov c).2 ps c.verbose = .ok b := by
        unfold mcmcBlock
        rw [hq]
        dsimp only [Verb.ge2]
        split
        · split <;> exact ⟨_, rfl⟩
        · exact ⟨_, rfl⟩
      obtain ⟨b, hb⟩ := hb
      exact ⟨b, by simp [blockOf, hl, hb]⟩
    obtain ⟨b, hb⟩ := this
    rw [hb]
    simp [get_cons, get_nil, Ne.symm hn]
  · have hne : str "polychord" ≠ str "mcmc" := by decide
    simp [blockOf, hl, hne, get_cons, get_nil, Ne.symm hn]

/-- **C118** Any other name is passed as given. -/
theorem C118_case_partial (valid : C → Bool) (c : Call C V) (name : Str) (ps : List Str) (debug : ℕ) (h : Ready c name ps debug)
    (hn : lower name ≠ str "mcmc" ∧ lower name ≠ str "polychord" ∨ name = str "polychord") :
    ∃ r b, sample valid c = .ok r ∧ r.input = [(name, b)] := by
  rw [sample_ready valid c name ps debug h]
  rcases hn with ⟨h1, h2⟩ | rfl
  · simp [blockOf, h1, h2, get_cons, put]
  · have hne : ¬ lower (str "polychord") = str "mcmc" := by decide
    have he : lower (str "polychord") = str "polychord" := by decide
    simp only [blockOf, if_neg hne, if_pos he]
    simp [get_cons, put]

/-! ## The covariance matrix -/

/-- **C118** The matrix passed to `mcmc`, with verbosity at least 2: the one given if valid; if none is given, that of the acquisition object
if valid; otherwise none. -/
theorem C118_cov_partial (valid : C → Bool) (c : Call C V) (ps : List Str) (debug : ℕ) (h : Ready c (str "mcmc") ps debug)
    (q : ℚ) (hv : c.verbose = .num q) (hq : 2 ≤ q) (ho : c.options = none) :
    ∃ r b, sample valid c = .ok r ∧ r.input = [(str "mcmc", b)] ∧
      Cobaya.get b (str "covmat") = ((c.covmat.or c.acq.join).filter valid).map fun m => .cov (some m) := by
  rw [sample_ready valid c _ ps debug h]
  have hc : (chooseCov c).1 = c.covmat.or c.acq.join := by
    unfold chooseCov
    cases c.covmat with
    | some m => rfl
    | none =>
      cases c.acq.join with
      | some m => cases c.conv <;> rfl
      | none => cases c.conv <;> simp [convCov]
  have hl : lower (str "mcmc") = str "mcmc" := by decide
  simp only [blockOf, hl, if_true, mcmcBlock, hv, Verb.ge2, hq, decide_true, hc, ho]
  cases hm : c.covmat.or c.acq.join with
  | none =>
    simp only [noCov, if_true, get_cons]
    exact ⟨_, _, rfl, rfl, by simp [baseOpts, update, get_cons, get_nil, str]⟩
  | some m =>
    cases hvm : valid m with
    | false =>
      simp only [noCov, hvm, Bool.not_false, if_true, get_cons]
      exact ⟨_, _, rfl, rfl, by simp [baseOpts, update, get_cons, get_nil, str, Option.filter, hvm]⟩
    | true =>
      simp only [noCov, hvm, Bool.not_true, Bool.false_eq_true, if_false, if_true, get_cons]
      exact ⟨_, _, rfl, rfl, by simp [covOpts, update, get_cons, get_nil, str, Option.filter, hvm]⟩

/-- **C118** The matrix of a convergence criterion is never found: the criteria are in a list. -/
theorem C118_conv_counterexample (valid : C → Bool) (m : C) (hm : valid m = true) (l : List (Option C)) (ps : List Str) :
    ∃ r b, sample (V := V) valid { model := .ok ps, acq := some none, conv := some (some m :: l) } = .ok r ∧ r.input = [(str "mcmc", b)] ∧
      Cobaya.get b (str "covmat") = none := by
  obtain ⟨r, b, h1, h2, h3⟩ := C118_cov_partial (V := V) valid { model := .ok ps, acq := some none, conv := some (some m :: l) } ps 20
    ⟨rfl, rfl, rfl, rfl, rfl⟩ 3 rfl (by norm_num) rfl
  exact ⟨r, b, h1, h2, by simpa using h3⟩

/-- **C118** The names of the parameters of the matrix: those given for it, if it is given too; otherwise `params`; otherwise those of the
model. Names without a matrix are ignored. -/
theorem C118_cov_params (valid : C → Bool) (c : Call C V) (ps : List Str) (debug : ℕ) (h : Ready c (str "mcmc") ps debug) (m : C)
    (hm : c.covmat.or c.acq.join = some m) (hv : valid m = true) (ho : c.options = none) :
    ∃ r b, sample valid c = .ok r ∧ r.input = [(str "mcmc", b)] ∧ Cobaya.get b (str "covmat_params") = some (.names
      (let given := if c.covmat.isSome then c.covmatParams.or c.params else c.params
       if given.getD [] = [] then ps else given.getD [])) := by
  rw [sample_ready valid c _ ps debug h]
  have hc : chooseCov c = (some m, if c.covmat.isSome then c.covmatParams.or c.params else c.params) := by
    unfold chooseCov
    cases hcm : c.covmat with
    | some m' =>
      rw [hcm] at hm
      simp at hm
      subst hm
      cases c.covmatParams <;> simp
    | none =>
      rw [hcm] at hm
      simp at hm
      have : c.acq.join = some m := by simp [hm]
      simp only [this]
      cases c.conv <;> rfl
  have hl : lower (str "mcmc") = str "mcmc" := by decide
  simp only [blockOf, hl, if_true, mcmcBlock, hc, hv, ho]
  generalize (if c.covmat.isSome then c.covmatParams.or c.params else c.params) = g
  simp only [noCov, hv, Bool.not_true, Bool.false_eq_true, if_false, if_true, get_cons]
  exact ⟨_, _, rfl, rfl, by simp [covOpts, update, get_cons, get_nil, str]⟩

/-! ## What is returned, and refusals -/

/-- **C118** The returned dictionary does not have the input under the name of the sampler, but under the object. -/
theorem C118_info_counterexample (valid : C → Bool) (c : Call C V) (r : Built C V) (h : sample valid c = .ok r) (name : Str) :
    Cobaya.get r.info (.name name) = none := by
  unfold sample at h
  split at h
  · simp at h
  split at h <;> try simp at h
  split at h <;> try simp at h
  split at h <;> try simp at h
  split at h <;> try simp at h
  split at h <;> try simp at h
  subst h
  simp [get_cons, get_nil]

/-- **C118** Output: with a path, exactly one of `resume` and `force` is passed; without, nothing. -/
theorem C118_output (valid : C → Bool) (c : Call C V) (r : Built C V) (h : sample valid c = .ok r) :
    (c.output = none → r.out = none) ∧ ∀ o, c.output = some o → ∃ f, r.out = some (o, c.resume, f) ∧ (f = true ↔ c.resume = false) := by
  unfold sample at h
  split at h
  · simp at h
  split at h <;> try simp at h
  split at h <;> try simp at h
  split at h <;> try simp at h
  split at h <;> try simp at h
  split at h <;> try simp at h
  subst h
  refine ⟨fun ho => by simp [ho], fun o ho => ⟨!c.resume, by simp [ho], by cases c.resume <;> simp⟩⟩

/-- **C118** Refusals: Cobaya not installed, a sampler that is not a string, a surrogate that cannot be loaded or has not been fitted. -/
theorem C118_refused (valid : C → Bool) (c : Call C V) :
    (c.installed = false → sample valid c = .error .moduleNotFound) ∧
    (c.installed = true → c.sampler = none ∨ c.gpr = none ∨ c.gpr = some false → sample valid c = .error .valueError) := by
  constructor
  · intro h; simp [sample, h]
  · intro h hh
    unfold sample
    rw [h]
    simp only [Bool.not_true, Bool.false_eq_true, if_false]
    rcases hh with hh | hh | hh
    · simp [hh]
    · rw [hh]; cases c.sampler <;> rfl
    · rw [hh]; cases c.sampler <;> rfl

/-- **C118** With `verbose=None`, which the level of the log understands, `mcmc` without a valid matrix raises `TypeError`. -/
theorem C118_none_counterexample (valid : C → Bool) (ps : List Str) :
    sample (V := V) valid { model := .ok ps, verbose := .none } = .error .typeError := by
  have hl : lower (str "mcmc") = str "mcmc" := by decide
  simp [sample, logLevel, blockOf, hl, mcmcBlock, chooseCov, noCov, Verb.ge2]

/-- A call with options, a matrix in the acquisition object, and output. -/
def exCall : Call ℕ ℕ where
  model := .ok [str "a"]
  options := some [(str "max_tries", 5), (str "Rminus1_stop", 1)]
  acq := some (some 7)
  output := some (str "out")
  resume := true

example : ∃ r b, sample (fun m : ℕ => m = 7) exCall = .ok r ∧ r.input = [(str "mcmc", b)] ∧
      Cobaya.get b (str "max_tries") = some (.user 5) ∧ Cobaya.get b (str "covmat") = some (.cov (some 7)) ∧
      Cobaya.get b (str "covmat_params") = some (.names [str "a"]) ∧ r.out = some (str "out", true, false) :=
  ⟨_, _, rfl, rfl, by decide, by decide, by decide, rfl⟩

example : Ready ({ model := .ok [str "a"], sampler := some (str "PolyChord") } : Call ℕ ℕ) (str "PolyChord") [str "a"] 20 :=
  ⟨rfl, rfl, rfl, rfl, by decide +kernel⟩

/-! ## Each theorem applied to concrete data -/

/-- More verbose, lower level. -/
example (n n' : ℕ) (h : logLevel (.num 1) = .ok n) (h' : logLevel (.num 4) = .ok n') : n' ≤ n := C118_level 1 4 n n' h h' (by norm_num)

theorem exCall_ok : ∃ r, sample (fun m : ℕ => m = 7) exCall = .ok r := ⟨_, rfl⟩

example : ∃ r b, sample (fun m : ℕ => m = 7) exCall = .ok r ∧ r.input = [(str "mcmc", b)] ∧ Cobaya.get b (str "Rminus1_stop") = some (.user 1) ∧
    Cobaya.get b (str "measure_speeds") = some (.bool false) := by
  obtain ⟨r, h⟩ := exCall_ok
  obtain ⟨name, b, h1, h2, h3, h4, -⟩ := C118_input _ exCall r h (by decide)
  cases h1
  exact ⟨r, b, h, h2, h3 _ _ (by decide), h4 (by decide)⟩

def exNested : Call ℕ ℕ := { model := .ok [str "a"], sampler := some (str "nested") }

example : ∃ r b, sample (fun _ : ℕ => true) exNested = .ok r ∧ r.input = [(str "nested", b)] :=
  C118_case_partial _ exNested (str "nested") [str "a"] 20 ⟨rfl, rfl, rfl, rfl, by decide +kernel⟩ (.inl (by decide))

def exMcmc : Call ℕ ℕ := { model := .ok [str "a", str "b"], sampler := some (str "mcmc"), acq := some (some 7), verbose := .num 3 }

theorem exMcmc_ready : ∃ debug, Ready exMcmc (str "mcmc") [str "a", str "b"] debug := ⟨20, rfl, rfl, rfl, rfl, by decide +kernel⟩

example : ∃ r b, sample (fun m : ℕ => m = 7) exMcmc = .ok r ∧ r.input = [(str "mcmc", b)] ∧ Cobaya.get b (str "covmat") = some (.cov (some 7)) := by
  obtain ⟨debug, h⟩ := exMcmc_ready
  exact C118_cov_partial _ exMcmc _ debug h 3 rfl (by norm_num) rfl

example : ∃ r b, sample (fun m : ℕ => m = 7) exMcmc = .ok r ∧ r.input = [(str "mcmc", b)] ∧
    Cobaya.get b (str "covmat_params") = some (.names [str "a", str "b"]) := by
  obtain ⟨debug, h⟩ := exMcmc_ready
  exact C118_cov_params _ exMcmc _ debug h 7 rfl (by decide) rfl

example : ∃ r f, sample (fun m : ℕ => m = 7) exCall = .ok r ∧ r.out = some (str "out", true, f) ∧ f = false := by
  obtain ⟨r, h⟩ := exCall_ok
  obtain ⟨f, h1, h2⟩ := (C118_output _ exCall r h).2 (str "out") rfl
  refine ⟨r, f, h, h1, ?_⟩
  cases f with
  | false => rfl
  | true => exact absurd (h2.1 rfl) (by decide)

example : sample (fun _ : ℕ => true) { exCall with installed := false } = .error .moduleNotFound ∧
    sample (fun _ : ℕ => true) { exCall with sampler := none } = .error .valueError :=
  ⟨(C118_refused _ _).1 rfl, (C118_refused _ _).2 rfl (.inl rfl)⟩

end GPry.McCobaya
