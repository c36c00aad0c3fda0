import Verif.Setup
import Verif.CobayaProps

set_option linter.all false

/-! # Setting up a `Runner`, the final MC sample and fiducial data: C87–C91 -/

namespace GPry.Setup

open GPry Cobaya

variable {V I : Type}

theorem get_addDefaults (d defs : Dict String V) (k : String) : get (addDefaults d defs) k = (get d k).or (get defs k) := by
  unfold addDefaults
  induction defs generalizing d with
  | nil => simp [get_nil]
  | cons q defs ih =>
    rw [List.foldl_cons, ih]
    by_cases h : q.1 ∈ d.map Prod.fst
    · rw [if_pos h, get_cons]
      by_cases hk : q.1 = k
      · have : get d k ≠ none := by rw [Ne, get_none]; exact fun h' => h' (hk ▸ h)
        obtain ⟨v, hv⟩ := Option.ne_none_iff_exists'.1 this
        simp [hv]
      · simp [hk]
    · rw [if_neg h, get_append, get_cons, get_cons, get_nil]
      by_cases hk : q.1 = k
      · have : get d k = none := (get_none d k).2 (hk ▸ h)
        simp [hk, this]
      · simp [hk]

theorem get_map_names (l : List String) (f : String → V) (k : String) : get (l.map fun k => (k, f k)) k = if k ∈ l then some (f k) else none := by
  induction l with
  | nil => simp [get_nil]
  | cons a l ih =>
    rw [List.map_cons, get_cons, ih]
    by_cases h : a = k
    · simp [h]
    · have : ¬ k = a := fun e => h e.symm
      simp [h, this]

/-! ## C87 -/

/-- **C87**: restarts. The number is never increased, changes by less than the number of processes, not at all up to that number, and from
there on it is a positive multiple of it. -/
theorem C87_restarts (size n : ℕ) (hs : 0 < size) :
    roundRestarts size n ≤ n ∧ n < roundRestarts size n + size ∧ (n ≤ size → roundRestarts size n = n) ∧
    (size ≤ n → size ∣ roundRestarts size n ∧ size ≤ roundRestarts size n) := by
  have hdm := Nat.div_add_mod n size
  have hlt := Nat.mod_lt n hs
  have hc : n / size * size = size * (n / size) := Nat.mul_comm _ _
  have h1 : size ≤ n → 1 ≤ n / size := fun h => (Nat.one_le_div_iff hs).2 h
  unfold roundRestarts
  by_cases h : size < n ∧ n % size ≠ 0
  · rw [if_pos h, hc]
    refine ⟨by omega, by omega, fun h' => absurd h.1 (by omega), fun h' => ⟨⟨_, rfl⟩, ?_⟩⟩
    exact Nat.le_mul_of_pos_right _ (h1 h')
  · rw [if_neg h]
    refine ⟨le_rfl, by omega, fun _ => rfl, fun h' => ⟨?_, h'⟩⟩
    rcases Nat.lt_or_ge size n with h2 | h2
    · exact Nat.dvd_of_mod_eq_zero (by by_contra h3; exact h ⟨h2, h3⟩)
    · have : n = size := by omega
      rw [this]

example : 4 ∣ roundRestarts 4 10 ∧ roundRestarts 4 3 = 3 :=
  ⟨((C87_restarts 4 10 (by decide)).2.2.2 (by decide)).1, (C87_restarts 4 3 (by decide)).2.2.1 (by decide)⟩

/-- **C87** (partial: not for `None`): the arguments of the regressor are those of the user, completed with the defaults; only the number of restarts
is parsed and rounded. An instance is used as it is, and a string is the kernel. -/
theorem C87_gpr_partial (size : ℕ) (dflt : String → V) (parse : V → Except SErr ℕ) (str : String → V) (num : ℕ → V) :
    (∀ i : I, constructGpr size dflt parse str num (.inst i) = .ok (.inl i)) ∧
    (∀ s, constructGpr (I := I) size dflt parse str num (.str s) = constructGpr size dflt parse str num (.mapping [("kernel", str s)])) ∧
    ∀ (d : Dict String V) (n : ℕ), parse ((get d "n_restarts_optimizer").getD (dflt "n_restarts_optimizer")) = .ok n →
      ∃ r, constructGpr (I := I) size dflt parse str num (.mapping d) = .ok (.inr r) ∧
        get r "n_restarts_optimizer" = some (num (roundRestarts size n)) ∧
        ∀ k, k ≠ "n_restarts_optimizer" → get r k = (get d k).or (if k ∈ gprNames then some (dflt k) else none) := by
  refine ⟨fun i => rfl, fun s => rfl, fun d n hn => ?_⟩
  have hget : ∀ k, get (addDefaults d (gprNames.map fun k => (k, dflt k))) k = (get d k).or (if k ∈ gprNames then some (dflt k) else none) := by
    intro k; rw [get_addDefaults, get_map_names]
  have hr : get (addDefaults d (gprNames.map fun k => (k, dflt k))) "n_restarts_optimizer" =
      some ((get d "n_restarts_optimizer").getD (dflt "n_restarts_optimizer")) := by
    rw [hget, if_pos (by decide)]
    cases get d "n_restarts_optimizer" <;> rfl
  refine ⟨put (addDefaults d (gprNames.map fun k => (k, dflt k))) ("n_restarts_optimizer", num (roundRestarts size n)), ?_, ?_, ?_⟩
  · simp only [constructGpr, finishGpr, hr, hn]
  · rw [get_put]; simp
  · intro k hk
    rw [get_put, if_neg (fun e => hk e.symm), hget]

example : ∃ r, constructGpr (I := Unit) 3 (fun k => if k = "n_restarts_optimizer" then 7 else 0) (fun v => .ok v) (fun _ => 1) id
      (.mapping [("noise_level", 5)]) = .ok (.inr r) ∧ get r "n_restarts_optimizer" = some (roundRestarts 3 7) ∧ get r "noise_level" = some 5 := by
  obtain ⟨r, h1, h2, h3⟩ := (C87_gpr_partial (I := Unit) 3 (fun k => if k = "n_restarts_optimizer" then 7 else 0) (fun v => .ok v) (fun _ => 1) id).2.2
    [("noise_level", 5)] 7 rfl
  exact ⟨r, h1, h2, h3 "noise_level" (by decide)⟩

/-- **C87** is false for `gpr=None`, which the documentation allows. -/
theorem C87_gpr_none_counterexample (size : ℕ) (dflt : String → V) (parse : V → Except SErr ℕ) (str : String → V) (num : ℕ → V) :
    constructGpr (I := I) size dflt parse str num .none = .error .typeError := rfl

/-- **C87** (partial: the engine is named): the arguments of the acquisition are those of the user, completed with the defaults. -/
theorem C87_acquisition_partial (dflt : String → V) (isFunc known : String → Bool) (func : String → V) (name : String) (args : Option (Dict String V))
    (rest : Dict String (Option (Dict String V))) (hf : isFunc name = false) (hk : known name = true) :
    ∃ r, constructAcq (I := I) dflt isFunc known func (.mapping ((name, args) :: rest)) = .ok (.inr (name, r)) ∧
      ∀ k, get r k = (args.bind fun a => get a k).or (if k ∈ acqNames then some (dflt k) else none) := by
  refine ⟨addDefaults (args.getD []) (acqNames.map fun k => (k, dflt k)), ?_, ?_⟩
  · simp [constructAcq, constructAcq1, hf, hk]
  · intro k
    rw [get_addDefaults, get_map_names]
    cases args <;> simp [get_nil]

example : ∃ r, constructAcq (I := Unit) (fun _ => 0) (fun s => s = "LogExp") (fun s => s = "NORA") (fun _ => 1) (.mapping [("NORA", some [("mc_every", 5)])])
      = .ok (.inr ("NORA", r)) ∧ get r "mc_every" = some 5 ∧ get r "bounds" = some 0 := by
  obtain ⟨r, h1, h2⟩ := C87_acquisition_partial (I := Unit) (fun _ => 0) (fun s => s = "LogExp") (fun s => s = "NORA") (fun _ => 1) "NORA"
    (some [("mc_every", 5)]) [] rfl rfl
  exact ⟨r, h1, h2 "mc_every", h2 "bounds"⟩

/-- **C87** is false if the acquisition function is named with its arguments: these are dropped. -/
theorem C87_function_args_counterexample (dflt : String → V) (isFunc known : String → Bool) (func : String → V) (name : String)
    (args : Option (Dict String V)) (hf : isFunc name = true) :
    constructAcq (I := I) dflt isFunc known func (.mapping [(name, args)]) = constructAcq dflt isFunc known func (.str name) := by
  simp [constructAcq, constructAcq1, hf]

/-- Unknown names and other things are refused. -/
theorem C87_refused (dflt : String → V) (isFunc known : String → Bool) (func : String → V) (name : String) (args : Option (Dict String V))
    (hf : isFunc name = false) (hk : known name = false) :
    constructAcq (I := I) dflt isFunc known func (.mapping [(name, args)]) = .error .valueError ∧
    constructAcq (I := I) dflt isFunc known func .other = .error .typeError := by
  simp [constructAcq, constructAcq1, hf, hk]

/-- Seven restarts with three processes; the user's noise and kernel. -/
example : ∃ r, constructGpr (I := Unit) 3 (fun k => if k = "n_restarts_optimizer" then 7 else 0) (fun v => .ok v) (fun _ => 1) id
      (.mapping [("noise_level", 5), ("kernel", 9)]) = .ok (.inr r) ∧
    get r "n_restarts_optimizer" = some 6 ∧ get r "noise_level" = some 5 ∧ get r "kernel" = some 9 ∧ get r "bounds" = some 0 ∧ get r "x" = none :=
  ⟨_, rfl, by decide +kernel, by decide +kernel, by decide +kernel, by decide +kernel, by decide +kernel⟩

/-! ## C88 -/

theorem mapM_ok {α β : Type} (f : α → Except SErr β) (g : α → β) (l : List α) (h : ∀ a ∈ l, f a = .ok (g a)) : l.mapM f = .ok (l.map g) := by
  induction l with
  | nil => rfl
  | cons a l ih =>
    rw [List.mapM_cons, h a (by simp), ih fun b hb => h b (by simp [hb])]
    rfl

/-- **C88** (partial: instances only alone or in sequences, and arguments that the classes accept): each entry gives one criterion, in order, with the
arguments given; instances are used as they are. -/
theorem C88_criteria_partial (known : String → Bool) (make : String → Dict String V → Bool) (pol : String → V) (mc : Bool) :
    (∀ d : Dict String (Option (Dict String V)), (∀ q ∈ d, known q.1 = true ∧ make q.1 (q.2.getD []) = true) →
      constructConv (I := I) known make pol mc (.mapping (d.map fun q => (q.1, .args q.2))) = .ok (d.map fun q => .made q.1 (q.2.getD []))) ∧
    (∀ l : List (I ⊕ String), (∀ s, Sum.inr s ∈ l → known s = true ∧ make s [] = true) →
      constructConv known make pol mc (.seq (l.map (Sum.elim .inst .name))) = .ok (l.map (Sum.elim .inst fun s => .made s []))) ∧
    (∀ i : I, constructConv known make pol mc (.single (.inst i)) = .ok [.inst i]) ∧
    (∀ s, known s = true → make s [] = true → constructConv (I := I) known make pol mc (.single (.name s)) = .ok [.made s []]) ∧
    constructConv (I := I) known make pol mc .false = .ok [.made "DontConverge" []] := by
  refine ⟨fun d h => ?_, fun l h => ?_, fun i => rfl, fun s h1 h2 => ?_, rfl⟩
  · show (List.mapM _ _ : Except SErr (List (Built V I))) = _
    rw [mapM_ok _ (fun q : String × CVal V I => match q.2 with
      | .args a => Built.made q.1 (a.getD [])
      | .inst i => .inst i)]
    · rw [List.map_map]; rfl
    · intro q hq
      obtain ⟨q', hq', rfl⟩ := List.mem_map.1 hq
      simp [makeCrit, (h q' hq').1, (h q' hq').2]
  · show (List.mapM _ _ : Except SErr (List (Built V I))) = _
    rw [mapM_ok _ (fun q : CItem I => match q with
      | .inst i => (Built.inst i : Built V I)
      | .name s => .made s []
      | _ => .made "" [])]
    · rw [List.map_map]
      congr 1
      apply List.map_congr_left
      intro a _
      cases a <;> rfl
    · intro q hq
      obtain ⟨a, ha, rfl⟩ := List.mem_map.1 hq
      cases a with
      | inl i => rfl
      | inr s => simp [makeItem, makeCrit, (h s ha).1, (h s ha).2]
  · show (List.mapM _ _ : Except SErr (List (Built V I))) = _
    rw [mapM_ok _ (fun _ => Built.made s [])]
    · rfl
    · intro q hq
      simp only [List.mem_singleton] at hq
      subst hq
      simp [makeItem, makeCrit, h1, h2]

example : constructConv (V := ℕ) (I := ℕ) (fun s => s = "GaussianKL" || s = "CorrectCounter") (fun _ _ => true) (fun _ => 0) false
    (.mapping [("GaussianKL", .args (some [("limit", 2)])), ("CorrectCounter", .args none)]) =
      .ok [.made "GaussianKL" [("limit", 2)], .made "CorrectCounter" []] :=
  (C88_criteria_partial (V := ℕ) (I := ℕ) (fun s => s = "GaussianKL" || s = "CorrectCounter") (fun _ _ => true) (fun _ => 0) false).1
    [("GaussianKL", some [("limit", 2)]), ("CorrectCounter", none)] (by decide)

/-- **C88**, defaults: `CorrectCounter`, and with NORA also the two others. -/
theorem C88_default (known : String → Bool) (make : String → Dict String V → Bool) (pol : String → V)
    (h : ∀ s ∈ ["CorrectCounter", "GaussianKL", "TrainAlignment"], known s = true ∧ ∀ a, make s a = true) :
    constructConv (I := I) known make pol false .none = .ok [.made "CorrectCounter" [("policy", pol "s")]] ∧
    constructConv (I := I) known make pol true .none = .ok [.made "CorrectCounter" [("policy", pol "s")], .made "GaussianKL" [("policy", pol "s")],
      .made "TrainAlignment" [("policy", pol "n")]] := by
  have h1 := h "CorrectCounter" (by simp)
  have h2 := h "GaussianKL" (by simp)
  have h3 := h "TrainAlignment" (by simp)
  constructor
  · simp [constructConv, defaultCrit, List.mapM_cons, makeCrit, h1.1, h1.2]
  · simp [constructConv, defaultCrit, List.mapM_cons, makeCrit, h1.1, h1.2, h2.1, h2.2, h3.1, h3.2]; rfl

example : constructConv (V := String) (I := ℕ) (fun _ => true) (fun _ _ => true) id false .none = .ok [.made "CorrectCounter" [("policy", "s")]] :=
  (C88_default (fun _ => true) (fun _ _ => true) id (by simp)).1

/-- **C88** is false for instances as values of a mapping (which the code means to keep as they are), and for mappings in a sequence. -/
theorem C88_counterexample (known : String → Bool) (make : String → Dict String V → Bool) (pol : String → V) (mc : Bool) (name : String) (i : I) :
    constructConv known make pol mc (.mapping [(name, .inst i)]) = .error .valueError ∧
    constructConv (V := V) (I := I) known make pol mc (.seq [.dict]) = .error .typeError := by
  constructor
  · show (List.mapM _ _ : Except SErr (List (Built V I))) = _
    rw [List.mapM_cons]
    have : makeCrit (V := V) known make name (.inst i) = .error .valueError := by
      unfold makeCrit; split <;> rfl
    show (do let x ← makeCrit (V := V) known make name (.inst i); _) = _
    rw [this]; rfl
  · rfl

open Spmd Prog

variable {p : ℕ}

theorem runs_shareLoop (hp : 0 < p) : ∀ (bs : List Bool) (hs : Fin p → List (Held V I)), (∀ r, (hs r).length = bs.length) →
    Runs (fun r : Fin p => shareLoop bs (hs r)) fun r =>
      .ok (List.zipWith (fun (b : Bool) (q : Held V I × Held V I) => if b then q.1 else q.2) bs ((hs ⟨0, hp⟩).zip (hs r)))
  | [], hs, h => by
    have : hs = fun _ => [] := by funext r; exact List.length_eq_zero_iff.1 (h r)
    subst this
    exact Runs.pure _
  | b :: bs, hs, h => by
    have hex : ∀ r, ∃ a l, hs r = a :: l := by
      intro r
      cases hr : hs r with
      | nil => have := h r; rw [hr] at this; simp at this
      | cons a l => exact ⟨a, l, rfl⟩
    choose a l hal using hex
    have : hs = fun r => a r :: l r := funext hal
    subst this
    have hl : ∀ r, (l r).length = bs.length := fun r => by simpa using h r
    have ih := runs_shareLoop hp bs l hl
    have h1 : Runs (fun r : Fin p => (if b then share 0 (a r) else Prog.ret (a r) : Prog SErr (Held V I)))
        fun r => .ok (if b then a ⟨0, hp⟩ else a r) := by
      cases b
      · exact Runs.ret _
      · exact runs_share ⟨0, hp⟩ a
    have h2 := Runs.bind h1 (k := fun (r : Fin p) h' => (shareLoop bs (l r)).andThen fun hs' => Pure.pure (h' :: hs')) (Runs.bind ih (Runs.pure _))
    have e : (fun r : Fin p => shareLoop (b :: bs) (a r :: l r)) = fun r : Fin p =>
        (if b then share 0 (a r) else Prog.ret (a r) : Prog SErr (Held V I)).andThen
          fun h' => (shareLoop bs (l r)).andThen fun hs' => Pure.pure (h' :: hs') := by
      funext r; rw [shareLoop]; rfl
    rw [e]
    refine Eq.mp ?_ h2
    congr 1

/-- **C88**: with any number of processes, all of them end up with as many criteria as the main one; those that are aware of MPI are the same in all, and
the others are dummies outside of the main process. -/
theorem C88_shared (construct : List (Built V I)) (aware : Built V I → Bool) (hp : 2 ≤ p) :
    Runs (fun r : Fin p => setupConv p (.ok construct) aware r.val) fun r =>
      .ok (construct.map fun c => if r.val = 0 ∨ aware c = true then .crit c else .dummy) := by
  have hp0 : 0 < p := by omega
  have h1 : Runs (fun r : Fin p => (if r.val = 0 then Prog.fin (.ok construct) else Prog.ret [] : Prog SErr (List (Built V I))))
      fun r => .ok (if r.val = 0 then construct else []) := by
    have : (fun r : Fin p => (if r.val = 0 then Prog.fin (.ok construct) else Prog.ret [] : Prog SErr (List (Built V I)))) =
        fun r => Prog.ret (if r.val = 0 then construct else []) := by
      funext r; split <;> rfl
    rw [this]
    exact Runs.ret _
  have h3 := runs_shareLoop (V := V) (I := I) hp0 (construct.map aware)
    (fun r : Fin p => if r.val = 0 then (if r.val = 0 then construct else []).map .crit else List.replicate (construct.map aware).length .dummy) (by
      intro r; by_cases hr : r.val = 0 <;> simp [hr])
  have h2 := runs_share (E := SErr) ⟨0, hp0⟩ (fun r : Fin p => if r.val = 0 then some ((if r.val = 0 then construct else []).map aware) else none)
  have h23 := Runs.bind h2 (k := fun (r : Fin p) aw => shareAll r.val (if r.val = 0 then construct else []) aw) h3
  have h123 := Runs.bind h1 (k := fun (r : Fin p) mine => shareConv aware r.val mine) h23
  have e : (fun r : Fin p => setupConv p (.ok construct) aware r.val) = fun r : Fin p =>
      (if r.val = 0 then Prog.fin (.ok construct) else Prog.ret [] : Prog SErr (List (Built V I))).andThen fun mine => shareConv aware r.val mine := by
    funext r
    unfold setupConv
    simp only [if_neg (show ¬ p ≤ 1 by omega)]
    rfl
  rw [e]
  refine Eq.mp ?_ h123
  congr 1
  funext r
  congr 1
  simp only [if_true]
  by_cases hr : r.val = 0
  · simp only [hr, if_true, true_or]
    clear h1 h2 h3 h23 h123 e
    induction construct with
    | nil => rfl
    | cons c cs ih => simp only [List.map_cons, List.zip_cons_cons, List.zipWith_cons_cons, ih, ite_self]
  · simp only [hr, if_false, false_or]
    clear h1 h2 h3 h23 h123 e
    induction construct with
    | nil => rfl
    | cons c cs ih => simp only [List.map_cons, List.length_cons, List.replicate_succ, List.zip_cons_cons, List.zipWith_cons_cons, ih]

example : Runs (fun r : Fin 3 => setupConv (V := ℕ) (I := ℕ) 3 (.ok [.inst 1, .inst 2]) (fun c => match c with | .inst i => decide (i = 2) | _ => false) r.val)
    fun r => .ok ([Built.inst 1, .inst 2].map fun c =>
      if r.val = 0 ∨ (match c with | Built.inst i => decide (i = 2) | _ => false) = true then .crit c else .dummy) :=
  C88_shared [.inst 1, .inst 2] _ (by decide)

/-- **C88** is false for criteria that are refused, with more than one process: the main process raises and the others wait for ever. -/
theorem C88_deadlock_counterexample (e : SErr) (aware : Built V I → Bool) (hp : 2 ≤ p) :
    Deadlocks (fun r : Fin p => setupConv p (.error e) aware r.val) := by
  apply deadlocks_of_ended ⟨0, by omega⟩ ⟨1, by omega⟩ (.error e)
  · unfold setupConv
    simp only [if_neg (show ¬ p ≤ 1 by omega)]
    rfl
  · intro y
    unfold setupConv
    simp only [if_neg (show ¬ p ≤ 1 by omega)]
    cases y <;> simp [Prog.fin, Bind.bind, Prog.andThen, Prog.cont, share, shareConv]

/-- Two criteria with policies, a third one as an instance. -/
example : constructConv (V := ℕ) (I := ℕ) (fun s => s = "GaussianKL" || s = "CorrectCounter") (fun _ _ => true) (fun _ => 0) false
    (.seq [.name "GaussianKL", .inst 7, .name "CorrectCounter"]) = .ok [.made "GaussianKL" [], .inst 7, .made "CorrectCounter" []] := rfl

/-! ## C89 -/

/-- **C89** is false: without any specification (which should mean the best nested sampler), it raises. -/
theorem C89_default_counterexample (nlive : V) :
    mcOptions (V := V) .none = .ok [] ∧ generate true ([] : Dict String (Option (Dict String V))) nlive .none false = .error .indexError := ⟨rfl, rfl⟩

/-- **C89** (partial: some sampler is named, in the call or at initialisation): the one of the call has priority; the options are those of the
user, and for nested samplers the number of live points is completed. -/
theorem C89_sampler_partial (mc : Dict String (Option (Dict String V))) (nlive : V) (name : String) (o : Option (Dict String V))
    (rest : Dict String (Option (Dict String V))) (sampler : MSpec V)
    (h : sampler = .mapping ((name, o) :: rest) ∨ sampler = .none ∧ mc = (name, o) :: rest ∨ sampler = .str name ∧ o = none ∧ rest = []) :
    ∃ opts d', generate true mc nlive sampler false = .ok ((if name.toLower = "nested" then .nested else .cobaya name.toLower, opts), d') ∧
      (∀ k, k ≠ "nlive" → get opts k = o.bind fun a => get a k) ∧
      (get opts "nlive" = (o.bind fun a => get a "nlive").or (if name.toLower = "nested" then some nlive else none)) := by
  have key : ∀ o' : Option (Dict String V), o'.getD [] = o.getD [] → ∃ opts d',
      chooseSampler nlive ((name, o') :: rest) = .ok ((if name.toLower = "nested" then .nested else .cobaya name.toLower, opts), d') ∧
      (∀ k, k ≠ "nlive" → get opts k = o.bind fun a => get a k) ∧
      (get opts "nlive" = (o.bind fun a => get a "nlive").or (if name.toLower = "nested" then some nlive else none)) := by
    intro o' ho
    have hg : ∀ k, get (o.getD []) k = o.bind fun a => get a k := by intro k; cases o <;> simp [get_nil]
    unfold chooseSampler
    dsimp only
    rw [ho]
    by_cases hn : name.toLower = "nested"
    · simp only [if_pos hn]
      by_cases hl : "nlive" ∈ (o.getD []).map Prod.fst
      · rw [if_pos hl]
        refine ⟨_, _, rfl, fun k _ => hg k, ?_⟩
        have : get (o.getD []) "nlive" ≠ none := by rw [Ne, get_none]; exact fun h' => h' hl
        rw [← hg]
        obtain ⟨v, hv⟩ := Option.ne_none_iff_exists'.1 this
        rw [hv]; rfl
      · rw [if_neg hl]
        refine ⟨_, _, rfl, fun k hk => ?_, ?_⟩
        · rw [get_append, get_cons, if_neg (fun e => hk e.symm), get_nil, hg]; simp
        · rw [get_append, get_cons, if_pos rfl, ← hg, (get_none _ _).2 hl]
    · simp only [if_neg hn]
      exact ⟨_, _, rfl, fun k _ => hg k, by rw [hg]; simp⟩
  rcases h with rfl | ⟨rfl, rfl⟩ | ⟨rfl, rfl, rfl⟩
  · exact key o rfl
  · exact key o rfl
  · exact key (some []) rfl

example : ∃ opts d', generate true [] 100 (.mapping [("mcmc", some [("Rminus1_stop", 1)])]) false =
      .ok ((if "mcmc".toLower = "nested" then .nested else .cobaya "mcmc".toLower, opts), d') ∧ get opts "Rminus1_stop" = some 1 := by
  obtain ⟨opts, d', h1, h2, -⟩ := C89_sampler_partial [] 100 "mcmc" (some [("Rminus1_stop", 1)]) [] _ (.inl rfl)
  exact ⟨opts, d', h1, h2 _ (by decide)⟩

/-- **C89**: the dictionary of options of the caller is changed in place. -/
theorem C89_changes_argument_counterexample (nlive a : V) :
    ∃ r d', generate true [] nlive (.mapping [("nested", some [("num_repeats", a)])]) false = .ok (r, d') ∧
      d' = [("nested", some [("num_repeats", a), ("nlive", nlive)])] := by
  have h : "nested".toLower = "nested" := by decide +kernel
  refine ⟨(.nested, [("num_repeats", a), ("nlive", nlive)]), _, ?_, rfl⟩
  simp [generate, chooseSampler, h]

/-- Not fitted, deprecated argument, other types. -/
theorem C89_refused (mc : Dict String (Option (Dict String V))) (nlive : V) (s : MSpec V) (name : String) (a : Bool) :
    generate false mc nlive s a = .error .valueError ∧ generate true mc nlive (.str name) true = .error .valueError ∧
    generate true mc nlive .other a = .error .valueError := ⟨rfl, rfl, rfl⟩

example : ∃ r, generate true [("mcmc", some [("Rminus1_stop", 1)])] 100 (.mapping [("Nested", some [("num_repeats", 5)])]) false = .ok r ∧
    r.1.1 = .nested ∧ get r.1.2 "nlive" = some 100 := by
  have h : "Nested".toLower = "nested" := by decide +kernel
  refine ⟨((.nested, [("num_repeats", 5), ("nlive", 100)]), [("Nested", some [("num_repeats", 5), ("nlive", 100)])]), ?_, rfl, rfl⟩
  simp [generate, chooseSampler, h]

/-! ## C90 -/

section read

variable {K : Type} [One K]

/-- A sequence of calls. -/
def reads (params : List String) : List (Bool × Bool) → Option (Dict String (Col K)) → Option (Dict String (Col K))
  | [], s => s
  | c :: cs, s => reads params cs (lastMc params c.1 c.2 s).2

/-- A stored sample, used in the examples. -/
def exSample : Dict String (Col ℚ) := [("w", .none), ("X", .mat [[1, 2], [3, 4]]), ("logpost", .vec [5, 6])]

/-- **C90** (partial: not with `copy=False, as_pandas=True`): reading the sample any number of times does not change it, and the dictionary
returned is the stored one. -/
theorem C90_kept_partial (params : List String) (calls : List (Bool × Bool)) (h : ∀ c ∈ calls, ¬ (c.1 = false ∧ c.2 = true)) (s : Option (Dict String (Col K)))
    (copy : Bool) : reads params calls s = s ∧ (lastMc params copy false (reads params calls s)).1 = .ok s := by
  have h1 : reads params calls s = s := by
    induction calls generalizing s with
    | nil => rfl
    | cons c cs ih =>
      have : (lastMc params c.1 c.2 s).2 = s := by
        have hc := h c (by simp)
        unfold lastMc
        cases c2 : c.2 with
        | false => rfl
        | true =>
          have : c.1 = true := by
            cases c1 : c.1 with
            | true => rfl
            | false => exact absurd ⟨c1, c2⟩ hc
          cases s with
          | none => rfl
          | some d => simp [this]
      rw [reads, this]
      exact ih (fun c' hc' => h c' (by simp [hc'])) s
  exact ⟨h1, by rw [h1]; rfl⟩

example : reads ["a", "b"] [(true, true), (false, false), (true, false)] (some exSample) = some exSample :=
  (C90_kept_partial ["a", "b"] [(true, true), (false, false), (true, false)] (by decide) (some exSample) true).1

theorem get_zip_columns (params : List String) (hnd : params.Nodup) (L : List (List K)) (hL : L.length = params.length) (j : ℕ) (hj : j < params.length) :
    get ((params.zip L).map fun q => (q.1, Col.vec q.2)) params[j] = some (.vec (L[j]'(by omega))) := by
  induction params generalizing L j with
  | nil => simp at hj
  | cons a ps ih =>
    cases L with
    | nil => simp at hL
    | cons l L =>
      rw [List.nodup_cons] at hnd
      rw [List.zip_cons_cons, List.map_cons, get_cons]
      cases j with
      | zero => simp
      | succ j =>
        have hj' : j < ps.length := by simpa using hj
        have : a ≠ ps[j] := fun e => hnd.1 (e ▸ List.getElem_mem hj')
        rw [List.getElem_cons_succ, if_neg this]
        exact ih hnd.2 L (by simpa using hL) j hj'

theorem filterMap_get (X : List (List K)) (n j : ℕ) (hX : ∀ x ∈ X, x.length = n) (hj : j < n) [Inhabited K] :
    (X.filterMap fun x => x[j]?) = X.map fun x => x.getD j default := by
  induction X with
  | nil => rfl
  | cons x X ih =>
    have hx : j < x.length := by rw [hX x (by simp)]; exact hj
    rw [List.filterMap_cons_some (b := x[j]) (by simp [hx]), List.map_cons, ih fun y hy => hX y (by simp [hy])]
    simp [List.getD, hx]

/-- **C90** (partial: names of parameters all different, and none of them that of another column): the table has, for each parameter, its coordinate of
all the points, in order; weights, one if there are none; and the other columns as they are. -/
theorem C90_table_partial [Inhabited K] (params : List String) (hnd : params.Nodup) (hres : ∀ s ∈ ["w", "X", "logpost", "logprior", "loglike"], s ∉ params)
    (d : Dict String (Col K)) (copy : Bool) (X : List (List K)) (hX : get d "X" = some (.mat X)) (hx : ∀ x ∈ X, x.length = params.length)
    (w : Option (List K)) (hw : get d "w" = some (w.elim .none .vec)) (y : List K) (hy : get d "logpost" = some (.vec y)) :
    ∃ t, (lastMc params copy true (some d)).1 = .ok (some t) ∧
      (∀ j (hj : j < params.length), get t params[j] = some (.vec (X.map fun x => x.getD j default))) ∧
      get t "w" = some (.vec (w.getD (List.replicate y.length 1))) ∧ get t "X" = none ∧
      ∀ k, k ≠ "w" → k ≠ "X" → k ∉ params → get t k = get d k := by
  have hf : ∃ d1, fillWeights d = (d1, none) ∧ get d1 "w" = some (.vec (w.getD (List.replicate y.length 1))) ∧ ∀ k, k ≠ "w" → get d1 k = get d k := by
    unfold fillWeights
    rw [hw]
    cases w with
    | none =>
      simp only [Option.elim]
      rw [hy]
      refine ⟨_, rfl, ?_, ?_⟩
      · rw [get_put]; simp [Col.len]
      · intro k hk
        rw [get_put, if_neg (fun e => hk e.symm)]
    | some w => exact ⟨d, rfl, hw, fun k _ => rfl⟩
  obtain ⟨d1, hd1, hw1, hk1⟩ := hf
  have hX1 : get d1 "X" = some (.mat X) := by rw [hk1 "X" (by decide), hX]
  have hcl : (columns X params.length).length = params.length := by simp [columns]
  have hkeys : ((params.zip (columns X params.length)).map fun q => (q.1, Col.vec q.2)).map Prod.fst = params := by
    rw [List.map_map]
    show (params.zip (columns X params.length)).map Prod.fst = params
    exact List.map_fst_zip (by omega)
  refine ⟨update (pop d1 "X") ((params.zip (columns X params.length)).map fun q => (q.1, .vec q.2)), ?_, ?_, ?_, ?_, ?_⟩
  · simp [lastMc, toPandas, hd1, splitX, hX1]
  · intro j hj
    rw [get_update _ _ _ (by rw [hkeys]; exact hnd), get_zip_columns params hnd _ hcl j hj]
    have : (columns X params.length)[j]'(by omega) = X.map fun x => x.getD j default := by
      unfold columns
      rw [List.getElem_map, List.getElem_range]
      exact filterMap_get X params.length j hx hj
    rw [this]; rfl
  all_goals
    first
    | rw [get_update _ _ _ (by rw [hkeys]; exact hnd), (get_none _ "w").2 (by rw [hkeys]; exact hres "w" (by simp)), get_pop, if_neg (by decide), hw1]; rfl
    | rw [get_update _ _ _ (by rw [hkeys]; exact hnd), (get_none _ "X").2 (by rw [hkeys]; exact hres "X" (by simp)), get_pop, if_pos rfl]; rfl
    | (intro k h1 h2 h3
       rw [get_update _ _ _ (by rw [hkeys]; exact hnd), (get_none _ k).2 (by rw [hkeys]; exact h3), get_pop, if_neg (fun e => h2 e.symm), hk1 k h1]; rfl)

example : ∃ t, (lastMc ["a", "b"] false true (some exSample)).1 = .ok (some t) ∧ get t "w" = some (.vec [1, 1]) ∧ get t "b" = some (.vec [2, 4]) := by
  obtain ⟨t, h1, h2, h3, -⟩ := C90_table_partial ["a", "b"] (by decide) (by decide) exSample false [[1, 2], [3, 4]] rfl (by simp) none rfl [5, 6] rfl
  exact ⟨t, h1, h3, h2 1 (by decide)⟩

end read


/-- **C90** is false: after reading it with `as_pandas=True, copy=False`, the stored sample has no points anymore, and doing it again raises. -/
theorem C90_counterexample :
    ∃ s, (lastMc ["a", "b"] false true (some exSample)).2 = some s ∧ get s "X" = none ∧ (lastMc ["a", "b"] false true (some s)).1 = .error .keyError ∧
      (lastMc ["a", "b"] true true (some s)).1 = .error .keyError := by
  refine ⟨_, rfl, by decide +kernel, rfl, rfl⟩

example : ∃ t, (lastMc ["a", "b"] true true (some exSample)).1 = .ok (some t) ∧ get t "b" = some (.vec [2, 4]) ∧ get t "w" = some (.vec [1, 1]) :=
  ⟨_, rfl, by decide +kernel, by decide +kernel⟩

/-! ## C91 -/

section fiducial

variable {P : Type}

/-- The densities stored are those of the point stored. -/
def Fid.Consistent (logprior : P → ℝ) (s : Fid P) : Prop :=
  s.logpost = none ∧ s.loglike = none ∨ ∃ x a b, s.X = some x ∧ s.logpost = some (.fin a) ∧ s.loglike = some (.fin b) ∧ a = b + logprior x

/-- **C91** (partial: with a density, or for the first time): after a call the densities stored are those of the point stored, whatever had been stored
before. -/
theorem C91_point_partial (lpr : P → ℝ) (s : Fid P) (X : P) (v : ℝ) :
    (∃ s', setPoint (fun x => .fin (lpr x)) s X true (some (.num (.fin v))) none = (s', none) ∧ s'.X = some X ∧ s'.logpost = some (.fin v) ∧ s'.Consistent lpr) ∧
    (∃ s', setPoint (fun x => .fin (lpr x)) s X true none (some (.num (.fin v))) = (s', none) ∧ s'.X = some X ∧ s'.loglike = some (.fin v) ∧ s'.Consistent lpr) ∧
    (s.logpost = none → s.loglike = none → ∃ s', setPoint (fun x => .fin (lpr x)) s X true none none = (s', none) ∧ s'.X = some X ∧ s'.Consistent lpr) := by
  refine ⟨⟨_, rfl, rfl, rfl, .inr ⟨X, v, v - lpr X, rfl, rfl, rfl, by ring⟩⟩, ⟨_, rfl, rfl, rfl, .inr ⟨X, v + lpr X, v, rfl, rfl, rfl, rfl⟩⟩, ?_⟩
  intro h1 h2
  exact ⟨_, rfl, rfl, .inl ⟨h1, h2⟩⟩

example : ∃ s', setPoint (fun x : ℝ => .fin (-x)) ⟨none, none, none⟩ 3 true (some (.num (.fin 5))) none = (s', none) ∧ s'.X = some 3 ∧
    s'.logpost = some (.fin 5) ∧ s'.Consistent (fun x => -x) := (C91_point_partial (fun x : ℝ => -x) ⟨none, none, none⟩ 3 5).1

/-- **C91** is false: a new point without densities is stored with those of the previous one; and a call that is refused (both densities given)
has nevertheless replaced the point. -/
theorem C91_stale_counterexample :
    ∃ (lpr : ℝ → ℝ) (s1 s2 s3 : Fid ℝ), setPoint (fun x => .fin (lpr x)) ⟨none, none, none⟩ 0 true (some (.num (.fin 3))) none = (s1, none) ∧
      s1.Consistent lpr ∧ setPoint (fun x => .fin (lpr x)) s1 1 true none none = (s2, none) ∧ ¬ s2.Consistent lpr ∧
      setPoint (fun x => .fin (lpr x)) s1 1 true (some (.num (.fin 4))) (some (.num (.fin 5))) = (s3, some .typeError) ∧ s3 ≠ s1 ∧ ¬ s3.Consistent lpr := by
  have hbad : ∀ s : Fid ℝ, s.X = some 1 → s.logpost = some (.fin 3) → s.loglike = some (.fin 3) → ¬ s.Consistent (fun x => x) := by
    rintro s h1 h2 h3 (⟨h, _⟩ | ⟨x, a, b, hx, ha, hb, hab⟩)
    · rw [h2] at h; cases h
    · rw [h1] at hx; rw [h2] at ha; rw [h3] at hb
      cases hx; cases ha; cases hb
      norm_num at hab
  refine ⟨fun x => x, _, _, _, rfl, .inr ⟨0, 3, 3 - 0, rfl, rfl, rfl, by ring⟩, rfl, ?_, rfl, ?_, ?_⟩
  · exact hbad _ rfl rfl (by simp [Ext.sub])
  · intro h
    have := congrArg Fid.X h
    simp at this
  · exact hbad _ rfl rfl (by simp [Ext.sub])

/-- Sample with densities and weights: all of the same length, and in each point the posterior is the likelihood times the prior. -/
def FidMC.Consistent (logprior : P → ℝ) (s : FidMC P) : Prop :=
  ∀ X, s.X = some X → (∀ w, s.w = some w → w.length = X.length) ∧
    (s.logpost = none ∧ s.loglike = none ∨ ∃ a b : List ℝ, s.logpost = some (a.map .fin) ∧ s.loglike = some (b.map .fin) ∧
      a.length = X.length ∧ b.length = X.length ∧ ∀ i (h1 : i < a.length) (h2 : i < b.length) (h3 : i < X.length), a[i] = b[i] + logprior X[i])

theorem zipWith_fin (f : Ext ℝ → Ext ℝ → Ext ℝ) (g : ℝ → ℝ → ℝ) (hfg : ∀ a b, f (.fin a) (.fin b) = .fin (g a b)) (v : List ℝ) (X : List P) (lpr : P → ℝ) :
    List.zipWith f (v.map .fin) (X.map fun x => .fin (lpr x)) = (List.zipWith g v (X.map lpr)).map .fin := by
  induction v generalizing X with
  | nil => simp
  | cons a v ih =>
    cases X with
    | nil => simp
    | cons x X => simp only [List.map_cons, List.zipWith_cons_cons, hfg, ih]

/-- **C91** (partial: with weights and a density, or where there were none before): the sample is stored consistently. Wrong lengths are refused. -/
theorem C91_sample_partial (lpr : P → ℝ) (s : FidMC P) (X : List P) (v : List ℝ) (w : Option (List ℝ)) (hv : v.length = X.length)
    (hw : ∀ w', w = some w' → w'.length = X.length) (hs : w = none → s.w = none) :
    (∃ s', setMC (fun x => .fin (lpr x)) s X true (some (v.map .fin)) none w = (s', none) ∧ s'.X = some X ∧ s'.logpost = some (v.map .fin) ∧ s'.w = w ∧ s'.Consistent lpr) ∧
    (∃ s', setMC (fun x => .fin (lpr x)) s X true none (some (v.map .fin)) w = (s', none) ∧ s'.X = some X ∧ s'.loglike = some (v.map .fin) ∧ s'.w = w ∧ s'.Consistent lpr) := by
  have hwid : ∃ s1 : FidMC P, setW ({ s with X := some X } : FidMC P) X w = (s1, none) ∧ s1.X = some X ∧ s1.w = w := by
    cases w with
    | none => exact ⟨_, rfl, rfl, hs rfl⟩
    | some w' =>
      have := hw w' rfl
      simp [setW, this]
  obtain ⟨s1, h1, h2, h3⟩ := hwid
  have hwl : ∀ w', w = some w' → w'.length = X.length := hw
  constructor
  · refine ⟨{ s1 with logpost := some (v.map .fin), loglike := some (List.zipWith Ext.sub (v.map .fin) (X.map fun x => .fin (lpr x))) }, ?_, h2, rfl, h3, ?_⟩
    · unfold setMC
      simp only [Bool.not_true, Bool.false_eq_true, if_false]
      rw [h1]
      simp [hv]
    · intro X' hX'
      have : X' = X := by
        have e := h2.symm.trans hX'
        exact (Option.some.inj e).symm
      subst this
      refine ⟨fun w' hw' => hwl w' (h3.symm.trans hw'), .inr ⟨v, List.zipWith (· - ·) v (X'.map lpr), rfl, ?_, hv, by simp [hv], ?_⟩⟩
      · show some _ = _
        rw [zipWith_fin Ext.sub (· - ·) (fun _ _ => rfl)]
      · intro i h1 h2 h3
        simp
  · refine ⟨{ s1 with loglike := some (v.map .fin), logpost := some (List.zipWith Truth.add (v.map .fin) (X.map fun x => .fin (lpr x))) }, ?_, h2, rfl, h3, ?_⟩
    · unfold setMC
      simp only [Bool.not_true, Bool.false_eq_true, if_false]
      rw [h1]
      simp [hv]
    · intro X' hX'
      have : X' = X := by
        have e := h2.symm.trans hX'
        exact (Option.some.inj e).symm
      subst this
      refine ⟨fun w' hw' => hwl w' (h3.symm.trans hw'), .inr ⟨List.zipWith (· + ·) v (X'.map lpr), v, ?_, rfl, by simp [hv], hv, ?_⟩⟩
      · show some _ = _
        rw [zipWith_fin Truth.add (· + ·) (fun _ _ => rfl)]
      · intro i h1 h2 h3
        simp

example : ∃ s', setMC (fun x : ℝ => .fin (-x)) ⟨none, none, none, none⟩ [3, 4] true none (some ([5, 6].map .fin)) (some [1, 2]) = (s', none) ∧ s'.X = some [3, 4] ∧
    s'.loglike = some ([5, 6].map .fin) ∧ s'.w = some [1, 2] ∧ s'.Consistent (fun x => -x) :=
  (C91_sample_partial (fun x : ℝ => -x) ⟨none, none, none, none⟩ [3, 4] [5, 6] (some [1, 2]) rfl (by rintro w ⟨⟩; rfl) (by simp)).2

/-- **C91** is false for samples: a new one without weights and densities keeps those of the previous one, of another length. -/
theorem C91_sample_counterexample :
    ∃ (lpr : ℝ → ℝ) (s1 s2 : FidMC ℝ), setMC (fun x => .fin (lpr x)) ⟨none, none, none, none⟩ [0, 1] true (some [.fin 3, .fin 4]) none (some [1, 2]) = (s1, none) ∧
      setMC (fun x => .fin (lpr x)) s1 [5] true none none none = (s2, none) ∧ s2.X = some [5] ∧ s2.w = some [1, 2] ∧ ¬ s2.Consistent lpr := by
  refine ⟨fun x => x, ⟨some [0, 1], some [1, 2], some [.fin 3, .fin 4], some [(Ext.fin 3).sub (.fin 0), (Ext.fin 4).sub (.fin 1)]⟩, _,
    by simp [setMC, setW], rfl, rfl, rfl, ?_⟩
  intro h
  have := (h [5] rfl).1 [1, 2] rfl
  simp at this

end fiducial

end GPry.Setup
