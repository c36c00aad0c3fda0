import Verif.AcqInit
import Verif.CobayaProps
import Mathlib.Analysis.SpecialFunctions.Pow.Real

set_option linter.all false

/-!
# C112: building acquisition objects
-/

namespace GPry.AcqInit

open GPry Cobaya AcqObj

variable {K : Type} [Field K] [LinearOrder K]

/-- **C112**: the result is the given instance, an acquisition function of the class named (the first key), or one of three errors: `TypeError`
for something that is not a specification, `IndexError` for an empty dictionary and `ValueError` for everything else. -/
theorem C112_outcome (auto : Ext K → Ext K → Ext K) (n : ℕ) (s : Spec K) :
    (∀ f, init auto n s = .ok f → s = .inst f ∨ ∃ name ps, f = .leaf name ps ∧ (sig name).isSome ∧ (s = .str name ∨ ∃ a l, s = .mapping ((name, a) :: l))) ∧
    (init auto n s = .error .typeError ↔ s = .other) ∧ (init auto n s = .error .indexError ↔ s = .mapping []) := by
  have hb : ∀ name args f, build auto name args = .ok f → ∃ ps, f = .leaf name ps ∧ (sig name).isSome := by
    intro name args f h
    unfold build at h
    rcases hs : sig name with _ | ps
    · rw [hs] at h; cases h
    · rw [hs] at h
      dsimp only at h
      split_ifs at h with h1 h2
      · rcases hz : zetaOf auto (arg args "zeta" .none) (arg args "dimension" .none) (arg args "zeta_scaling" (.num (.fin (85 / 100)))) with e | z
        · rw [hz] at h; cases h
        · rw [hz] at h
          cases h
          exact ⟨_, rfl, rfl⟩
      all_goals
        cases h
        exact ⟨_, rfl, rfl⟩
  have hm : ∀ name a l, (∀ f, (fromMapping auto n ((name, a) :: l)).1 = .ok f → ∃ ps, f = .leaf name ps ∧ (sig name).isSome) ∧
      (fromMapping auto n ((name, a) :: l)).1 ≠ .error .typeError ∧ (fromMapping auto n ((name, a) :: l)).1 ≠ .error .indexError := by
    intro name a l
    have e : (fromMapping auto n ((name, a) :: l)).1 = (match build auto name (put (a.getD []) ("dimension", .num (.fin (n : K)))) with
      | .ok f => .ok f
      | .error _ => .error .valueError) := rfl
    rw [e]
    rcases hq : build auto name (put (a.getD []) ("dimension", .num (.fin (n : K)))) with er | f
    · exact ⟨fun f h => (by cases h), (by intro h; cases h), (by intro h; cases h)⟩
    · exact ⟨fun g h => (by cases h; exact hb _ _ _ hq), (by intro h; cases h), (by intro h; cases h)⟩
  cases s with
  | inst f =>
    refine ⟨fun g h => .inl (by cases h; rfl), ⟨fun h => (by cases h), fun h => (by cases h)⟩, ⟨fun h => (by cases h), fun h => (by cases h)⟩⟩
  | other =>
    refine ⟨fun g h => (by cases h), ⟨fun h => rfl, fun h => rfl⟩, ⟨fun h => (by cases h), fun h => (by cases h)⟩⟩
  | str name =>
    have h := hm name (some []) []
    refine ⟨fun f hf => .inr ?_, ⟨fun h' => absurd h' h.2.1, fun h => (by cases h)⟩, ⟨fun h' => absurd h' h.2.2, fun h => (by cases h)⟩⟩
    obtain ⟨ps, h1, h2⟩ := h.1 f hf
    exact ⟨name, ps, h1, h2, .inl rfl⟩
  | mapping d => cases d with
    | nil => exact ⟨fun f h => (by cases h), ⟨fun h => (by cases h), fun h => (by cases h)⟩, ⟨fun _ => rfl, fun _ => rfl⟩⟩
    | cons q l =>
      obtain ⟨name, a⟩ := q
      have h := hm name a l
      refine ⟨fun f hf => .inr ?_, ⟨fun h' => absurd h' h.2.1, fun h => (by cases h)⟩, ⟨fun h' => absurd h' h.2.2, fun h => (by cases h)⟩⟩
      obtain ⟨ps, h1, h2⟩ := h.1 f hf
      exact ⟨name, ps, h1, h2, .inr ⟨a, l, rfl⟩⟩

example : init (K := ℚ) (fun _ _ => .fin 1) 2 .other = .error .typeError ∧ init (K := ℚ) (fun _ _ => .fin 1) 2 (.mapping []) = .error .indexError :=
  ⟨(C112_outcome _ _ _).2.1.2 rfl, (C112_outcome _ _ _).2.2.2 rfl⟩

/-- The arguments of a `LogExp` with the dimension of the problem. -/
theorem build_logExp (auto : Ext K → Ext K → Ext K) (n : ℕ) (name : String) (hn : name = "LogExp" ∨ name = "NonlinearLogExp")
    (args : Dict String (Pv K)) (ha : ∀ q ∈ args, q.1 ∈ ["zeta", "sigma_n", "fixed", "dimension", "zeta_scaling", "linear"]) :
    build auto name (put args ("dimension", .num (.fin (n : K)))) =
      match zetaOf auto (arg args "zeta" .none) (.num (.fin (n : K))) (arg args "zeta_scaling" (.num (.fin (85 / 100)))) with
      | .error e => .error e
      | .ok z => .ok (.leaf name [("zeta".toList, z), ("sigma_n".toList, arg args "sigma_n" .none), ("fixed".toList, arg args "fixed" (.bool false)),
          ("dimension".toList, .none), ("zeta_scaling".toList, .none), ("linear".toList, .none)]) := by
  have hs : sig name = some ["zeta", "sigma_n", "fixed", "dimension", "zeta_scaling", "linear"] := by rcases hn with rfl | rfl <;> rfl
  have hk : ∀ q ∈ put args ("dimension", (.num (.fin (n : K)) : Pv K)), q.1 ∈ ["zeta", "sigma_n", "fixed", "dimension", "zeta_scaling", "linear"] := by
    intro q hq
    unfold put at hq
    split_ifs at hq with h
    · obtain ⟨r, hr, he⟩ := List.mem_map.1 hq
      split_ifs at he with h'
      · rw [← he]; exact ha r hr
      · rw [← he]; exact ha r hr
    · rcases List.mem_append.1 hq with h' | h'
      · exact ha q h'
      · rw [List.mem_singleton.1 h']; simp
  have hany : ((put args ("dimension", (.num (.fin (n : K)) : Pv K))).any fun q => decide (q.1 ∉ ["zeta", "sigma_n", "fixed", "dimension", "zeta_scaling", "linear"])) = false := by
    rw [List.any_eq_false]
    intro q hq
    rw [decide_eq_true_eq]
    exact fun h => h (hk q hq)
  have harg : ∀ k v, k ≠ "dimension" → arg (put args ("dimension", (.num (.fin (n : K)) : Pv K))) k v = arg args k v := by
    intro k v hk
    unfold arg
    rw [get_put, if_neg (Ne.symm hk)]
  have hdim : arg (put args ("dimension", (.num (.fin (n : K)) : Pv K))) "dimension" .none = .num (.fin (n : K)) := by
    unfold arg
    rw [get_put, if_pos rfl]; rfl
  unfold build
  rw [hs]
  dsimp only
  rw [hany, if_neg (by simp), if_pos (by simp), harg "zeta" _ (by decide), hdim, harg "zeta_scaling" _ (by decide), harg "sigma_n" _ (by decide),
    harg "fixed" _ (by decide)]
  rfl

/-- What an attribute of an acquisition function is. -/
def attr : Af K → String → Option (Pv K)
  | .leaf _ ps, k => get ps k.toList
  | _, _ => none

/-- **C112**: `LogExp` (and `NonlinearLogExp`) with the arguments `args`: `zeta` is the one given, otherwise the power of the dimension of the
bounds given by `zeta_scaling` (0.85 by default); the noise is the one given (`None` by default). -/
theorem C112_logExp (auto : Ext K → Ext K → Ext K) (n : ℕ) (name : String) (hn : name = "LogExp" ∨ name = "NonlinearLogExp") (args : Dict String (Pv K))
    (l : Dict String (Option (Dict String (Pv K)))) (ha : ∀ q ∈ args, q.1 ∈ ["zeta", "sigma_n", "fixed", "dimension", "zeta_scaling", "linear"])
    (s : Ext K) (hsc : arg args "zeta_scaling" (.num (.fin (85 / 100))) = .num s) :
    ∃ f, init auto n (.mapping ((name, some args) :: l)) = .ok f ∧
      attr f "zeta" = some (if arg args "zeta" .none = .none then .num (auto (.fin (n : K)) s) else arg args "zeta" .none) ∧
      attr f "sigma_n" = some (arg args "sigma_n" .none) := by
  have e : init auto n (.mapping ((name, some args) :: l)) = (match build auto name (put args ("dimension", .num (.fin (n : K)))) with
      | .ok f => .ok f
      | .error _ => .error .valueError) := rfl
  rw [e, build_logExp auto n name hn args ha, hsc]
  have hz : zetaOf auto (arg args "zeta" .none) (.num (.fin (n : K))) (.num s) =
      .ok (if arg args "zeta" .none = .none then .num (auto (.fin (n : K)) s) else arg args "zeta" .none) := by
    cases h : arg args "zeta" (.none : Pv K) with
    | none => simp [zetaOf, Pv.norm]
    | bool b => simp [zetaOf]
    | num x => simp [zetaOf]
  rw [hz]
  exact ⟨_, rfl, rfl, rfl⟩

/-- **C112**: `ExpectedImprovement` with the arguments `args`: `xi` is the one given, otherwise 0.01. -/
theorem C112_xi (auto : Ext K → Ext K → Ext K) (n : ℕ) (args : Dict String (Pv K)) (l : Dict String (Option (Dict String (Pv K))))
    (ha : ∀ q ∈ args, q.1 ∈ ["xi", "fixed", "dimension"]) :
    ∃ f, init auto n (.mapping (("ExpectedImprovement", some args) :: l)) = .ok f ∧ attr f "xi" = some (arg args "xi" (.num (.fin (1 / 100)))) := by
  have e : init auto n (.mapping (("ExpectedImprovement", some args) :: l)) = (match build auto "ExpectedImprovement" (put args ("dimension", .num (.fin (n : K)))) with
      | .ok f => .ok f
      | .error _ => .error .valueError) := rfl
  have hany : ((put args ("dimension", (.num (.fin (n : K)) : Pv K))).any fun q => decide (q.1 ∉ ["xi", "fixed", "dimension"])) = false := by
    rw [List.any_eq_false]
    intro q hq
    rw [decide_eq_true_eq]
    refine fun h => h ?_
    unfold put at hq
    split_ifs at hq with hd
    · obtain ⟨r, hr, he⟩ := List.mem_map.1 hq
      split_ifs at he with h'
      · rw [← he]; exact ha r hr
      · rw [← he]; exact ha r hr
    · rcases List.mem_append.1 hq with h' | h'
      · exact ha q h'
      · rw [List.mem_singleton.1 h']; simp
  have hx : arg (put args ("dimension", (.num (.fin (n : K)) : Pv K))) "xi" (.num (.fin (1 / 100))) = arg args "xi" (.num (.fin (1 / 100))) := by
    unfold arg
    rw [get_put, if_neg (show ¬ "dimension" = "xi" by decide)]
  rw [e]
  unfold build
  simp only [sig, hany]
  refine ⟨_, rfl, ?_⟩
  rw [← hx]
  rfl

example : ∃ f, init (K := ℚ) (fun _ _ => .fin 1) 2 (.mapping [("ExpectedImprovement", some [("fixed", .bool true)])]) = .ok f ∧ attr f "xi" = some (.num (.fin (1 / 100))) :=
  C112_xi _ 2 [("fixed", .bool true)] [] (by simp)

/-- **C112**: an entry `dimension` among the arguments has no influence. -/
theorem C112_dimension (auto : Ext K → Ext K → Ext K) (n : ℕ) (name : String) (args : Dict String (Pv K)) (v : Pv K)
    (l : Dict String (Option (Dict String (Pv K)))) (hd : "dimension" ∉ args.map Prod.fst) :
    init auto n (.mapping ((name, some (args ++ [("dimension", v)])) :: l)) = init auto n (.mapping ((name, some args) :: l)) := by
  have e : ∀ a : Dict String (Pv K), init auto n (.mapping ((name, some a) :: l)) = (match build auto name (put a ("dimension", .num (.fin (n : K)))) with
      | .ok f => .ok f
      | .error _ => .error .valueError) := fun _ => rfl
  rw [e, e]
  have : put (args ++ [("dimension", v)]) ("dimension", (.num (.fin (n : K)) : Pv K)) = put args ("dimension", .num (.fin (n : K))) := by
    unfold put
    rw [if_pos (by simp), if_neg hd, List.map_append]
    congr 1
    conv_rhs => rw [← List.map_id args]
    refine List.map_congr_left fun r hr => ?_
    rw [if_neg (fun h => hd (List.mem_map.2 ⟨r, hr, h⟩))]; rfl
  rw [this]

example : init (K := ℚ) (fun _ _ => .fin 1) 2 (.mapping [("LogExp", some [("zeta", .num (.fin 1)), ("dimension", .num (.fin 7))])]) =
    init (fun _ _ => .fin 1) 2 (.mapping [("LogExp", some [("zeta", .num (.fin 1))])]) :=
  C112_dimension _ _ _ [("zeta", .num (.fin 1))] _ _ (by decide)

/-- **C112**: arguments that the class does not have are refused. -/
theorem C112_unknown (auto : Ext K → Ext K → Ext K) (n : ℕ) (name : String) (args : Dict String (Pv K)) (l : Dict String (Option (Dict String (Pv K))))
    (h : ∀ ps, sig name = some ps → ∃ q ∈ args, q.1 ∉ ps) : init auto n (.mapping ((name, some args) :: l)) = .error .valueError := by
  have e : init auto n (.mapping ((name, some args) :: l)) = (match build auto name (put args ("dimension", .num (.fin (n : K)))) with
      | .ok f => .ok f
      | .error _ => .error .valueError) := rfl
  rw [e]
  unfold build
  rcases hs : sig name with _ | ps
  · rfl
  · obtain ⟨q, hq, hps⟩ := h ps hs
    dsimp only
    have hk : q.1 ∈ (put args ("dimension", (.num (.fin (n : K)) : Pv K))).map Prod.fst := by
      unfold put
      split_ifs with h'
      · rw [List.map_map]
        refine List.mem_map.2 ⟨q, hq, ?_⟩
        simp only [Function.comp]
        split_ifs <;> rfl
      · rw [List.map_append]
        exact List.mem_append.2 (.inl (List.mem_map.2 ⟨q, hq, rfl⟩))
    obtain ⟨r, hr, he⟩ := List.mem_map.1 hk
    rw [if_pos (by
      rw [List.any_eq_true]
      exact ⟨r, hr, by simpa [he] using hps⟩)]

/-- `n ** (-s)` for real numbers. -/
noncomputable def autoR : Ext ℝ → Ext ℝ → Ext ℝ
  | .fin n, .fin s => .fin (n ^ (-s))
  | _, _ => .nan

/-- **C112**: the default `zeta` is in (0, 1], 1 in one dimension, and smaller in more dimensions. -/
theorem C112_zeta (s : ℝ) (hs : 0 < s) (n m : ℕ) (hn : 1 ≤ n) (hnm : n < m) : ∃ a b : ℝ,
    autoR (.fin n) (.fin s) = .fin a ∧ autoR (.fin m) (.fin s) = .fin b ∧ 0 < b ∧ b < a ∧ a ≤ 1 ∧ (n = 1 → a = 1) := by
  have h1 : (1 : ℝ) ≤ n := by exact_mod_cast hn
  have h2 : (n : ℝ) < m := by exact_mod_cast hnm
  refine ⟨_, _, rfl, rfl, Real.rpow_pos_of_pos (by linarith) _, Real.rpow_lt_rpow_of_neg (by linarith) h2 (by linarith), Real.rpow_le_one_of_one_le_of_nonpos h1 (by linarith), ?_⟩
  rintro rfl
  simp

example : ∃ a b : ℝ, autoR (.fin (2 : ℕ)) (.fin (85 / 100)) = .fin a ∧ autoR (.fin (8 : ℕ)) (.fin (85 / 100)) = .fin b ∧ b < a := by
  obtain ⟨a, b, h1, h2, -, h3, -⟩ := C112_zeta (85 / 100) (by norm_num) 2 8 (by norm_num) (by norm_num)
  exact ⟨a, b, h1, h2, h3⟩

/-- **C112** is false for the argument given: its dictionary of arguments gets an entry `dimension`, unless it is empty. -/
theorem C112_mutates_counterexample (auto : Ext ℚ → Ext ℚ → Ext ℚ) :
    (fromMapping auto 3 [("LogExp", some [("zeta", (.num (.fin 1) : Pv ℚ))])]).2 ≠ [("LogExp", some [("zeta", .num (.fin 1))])] := by
  intro h
  have : (fromMapping auto 3 [("LogExp", some [("zeta", (.num (.fin 1) : Pv ℚ))])]).2 =
      [("LogExp", some [("zeta", .num (.fin 1)), ("dimension", .num (.fin 3))])] := rfl
  rw [this] at h
  revert h; decide

/-- **C112**: all classes that can be built by name are listed by `builtin_names` … -/
theorem C112_names (name : String) (h : (sig name).isSome) : name ∈ afNames := by
  unfold sig at h
  split at h <;> first | (cases h; done) | decide

example : "NonlinearLogExp" ∈ afNames ∨ (sig "NonlinearLogExp").isSome = false := by
  cases h : (sig "NonlinearLogExp").isSome with
  | true => exact .inl (C112_names _ h)
  | false => exact .inr rfl

/-- **C112** … but names that cannot are listed too, among them one that is no acquisition function; and `builtin_names` of the acquisition classes
lists classes that are not. -/
theorem C112_names_counterexample (auto : Ext K → Ext K → Ext K) (n : ℕ) :
    (∀ name ∈ ["AcquisitionFunctionOperator", "BaseLogExp", "Exponentiation", "Iterable", "Product", "Sum"], name ∈ afNames ∧
      init auto n (.str name) = .error .valueError) ∧
    ∀ name ∈ ["CentroidsProposer", "NumpyErrorHandling", "RankedPool", "partial"], name ∈ gpNames := by
  refine ⟨?_, by decide⟩
  intro name h
  simp only [List.mem_cons, List.not_mem_nil, or_false] at h
  rcases h with rfl | rfl | rfl | rfl | rfl | rfl <;> exact ⟨by decide, rfl⟩

/-- Objects made from functions by operators. -/
inductive Made : GAf → Prop
  | leaf (g : Bool) : Made (.leaf g)
  | op {a b : GAf} : Made a → Made b → Made (a.mkOp b)
  | pow {a : GAf} : Made a → Made a.mkPow

/-- **C112**: a composite function can return gradients if and only if all its parts can. -/
theorem C112_gradient {f : GAf} (h : Made f) : f.has = f.allLeaves := by
  induction h with
  | leaf g => rfl
  | op _ _ ha hb => simp only [GAf.mkOp, GAf.has, GAf.allLeaves] at *; rw [← ha, ← hb]
  | pow _ ha => simp only [GAf.mkPow, GAf.has, GAf.allLeaves] at *; rw [← ha]

example : (GAf.mkPow (GAf.mkOp (.leaf true) (.leaf false))).has = false := C112_gradient (.pow (.op (.leaf _) (.leaf _)))

/-- **C112**: `auto` takes the gradient optimizer exactly if all parts have gradients; that optimizer is refused otherwise; the other names accepted
are `sampling` only. -/
theorem C112_optimizer {f : GAf} (h : Made f) (o o' : Optimizer) :
    (chooseOptimizer f (.str "auto") = .ok (.str "fmin_l_bfgs_b") ↔ f.allLeaves = true) ∧
    (chooseOptimizer f (.str "auto") = .ok (.str "sampling") ↔ f.allLeaves = false) ∧
    (chooseOptimizer f o = .ok o' → o' = .callable ∧ o = .callable ∨ o' = .str "sampling" ∨ o' = .str "fmin_l_bfgs_b" ∧ f.allLeaves = true) ∧
    (∀ s, s ≠ "auto" → s ≠ "fmin_l_bfgs_b" → s ≠ "sampling" → chooseOptimizer f (.str s) = .error .valueError) := by
  rw [← C112_gradient h]
  refine ⟨?_, ?_, ?_, ?_⟩
  · simp only [chooseOptimizer]
    cases f.has <;> simp
  · simp only [chooseOptimizer]
    cases f.has <;> simp
  · intro h
    cases o with
    | callable => cases h; exact .inl ⟨rfl, rfl⟩
    | str s =>
      unfold chooseOptimizer at h
      dsimp only at h
      by_cases h1 : s = "auto"
      · rw [if_pos h1] at h
        cases hf : f.has with
        | true => rw [hf, if_pos rfl] at h; cases h; exact .inr (.inr ⟨rfl, rfl⟩)
        | false => rw [hf, if_neg (by simp)] at h; cases h; exact .inr (.inl rfl)
      · rw [if_neg h1] at h
        by_cases h2 : s = "fmin_l_bfgs_b"
        · rw [if_pos h2] at h
          cases hf : f.has with
          | true => rw [hf, if_pos rfl] at h; cases h; exact .inr (.inr ⟨by rw [h2], rfl⟩)
          | false => rw [hf, if_neg (by simp)] at h; cases h
        · rw [if_neg h2] at h
          by_cases h3 : s = "sampling"
          · rw [if_pos h3] at h; cases h; exact .inr (.inl (by rw [h3]))
          · rw [if_neg h3] at h; cases h
  · intro s h1 h2 h3
    simp [chooseOptimizer, h1, h2, h3]

example : chooseOptimizer (GAf.mkOp (.leaf true) (.leaf true)) (.str "auto") = .ok (.str "fmin_l_bfgs_b") ∧
    chooseOptimizer (GAf.mkOp (.leaf true) (.leaf true)) (.str "bobyqa") = .error .valueError :=
  have h := C112_optimizer (.op (.leaf true) (.leaf true)) (.str "auto") .callable
  ⟨h.1.2 rfl, h.2.2.2 _ (by decide) (by decide) (by decide)⟩

/-- **C112** is false for the name that the error message proposes, and after `set_params` has replaced an operand: then the gradient optimizer is
taken for a function that has no gradient. -/
theorem C112_optimizer_counterexample :
    (∀ f, chooseOptimizer f (.str "lbfgs") = .error .valueError) ∧
    ∃ f x : GAf, Made f ∧ Made x ∧ (f.setK1 x).allLeaves = false ∧ chooseOptimizer (f.setK1 x) (.str "auto") = .ok (.str "fmin_l_bfgs_b") :=
  ⟨fun _ => rfl, GAf.mkOp (.leaf true) (.leaf true), .leaf false, .op (.leaf _) (.leaf _), .leaf _, rfl, by decide⟩

/-- C112: `LogExp` by default, with arguments, and a dictionary with an unknown one. -/
example : init autoR 2 (.str "LogExp") = init autoR 2 (.mapping [("LogExp", none)]) ∧
    (∃ f, init autoR 4 (.mapping [("LogExp", some [("zeta_scaling", .num (.fin (1 / 2)))])]) = .ok f ∧ attr f "zeta" = some (.num (.fin ((4 : ℝ) ^ (-(1 / 2 : ℝ)))))) ∧
    init autoR 4 (.mapping [("Mu", some [("zeta", .num (.fin 1))])]) = .error .valueError := by
  refine ⟨rfl, ?_, ?_⟩
  · obtain ⟨f, h1, h2, -⟩ := C112_logExp autoR 4 "LogExp" (.inl rfl) [("zeta_scaling", .num (.fin (1 / 2)))] [] (by simp) (.fin (1 / 2)) (by simp [arg, Cobaya.get])
    refine ⟨f, h1, ?_⟩
    rw [h2]
    simp [arg, Cobaya.get, autoR]
  · exact C112_unknown autoR 4 "Mu" _ [] (by
      intro ps h
      cases h
      exact ⟨_, List.mem_singleton.2 rfl, by decide⟩)

/-- C112: `(f + g) ** 2` with one part without gradient. -/
example : Made (GAf.mkPow (GAf.mkOp (.leaf true) (.leaf false))) ∧ chooseOptimizer (GAf.mkPow (GAf.mkOp (.leaf true) (.leaf false))) (.str "auto") = .ok (.str "sampling") :=
  ⟨.pow (.op (.leaf _) (.leaf _)), rfl⟩

end GPry.AcqInit
