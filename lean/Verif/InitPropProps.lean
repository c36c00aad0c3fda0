import Verif.InitProp
import Verif.ProposalProps

set_option linter.all false

namespace GPry.InitProp

open GPry.Cobaya
open GPry.Proposal (Box ext uniformPoint Inside)

section Construct
variable {K I : Type}

/-! ## Names -/

theorem noSuffix_eq (s w : Str) (hw : (str "proposer").isSuffixOf w = false) :
    noSuffix s = w ↔ lower s = w ∨ lower s = w ++ str "proposer" := by
  unfold noSuffix
  split_ifs with h
  · have h' : str "proposer" <:+ lower s := List.isSuffixOf_iff_suffix.1 h
    obtain ⟨t, ht⟩ := h'
    rw [← ht, List.length_append, Nat.add_sub_cancel, List.take_left']
    · constructor
      · rintro rfl
        exact Or.inr rfl
      · rintro (h1 | h1)
        · exfalso
          have : (str "proposer").isSuffixOf w = true := List.isSuffixOf_iff_suffix.2 ⟨t, h1⟩
          rw [hw] at this
          cases this
        · exact List.append_cancel_right h1
    · rfl
  · constructor
    · exact Or.inl
    · rintro (h1 | h1)
      · exact h1
      · exact absurd (List.isSuffixOf_iff_suffix.2 ⟨w, h1.symm⟩) h

/-- The name of a class, without the suffix. -/
def Cls.name : Cls → Str
  | .reference => str "reference"
  | .prior => str "prior"
  | .uniform => str "uniform"
  | .meanCov => str "meancov"

theorem name_suffix (c : Cls) : (str "proposer").isSuffixOf c.name = false := by cases c <;> decide +kernel

theorem classOf_eq (s : Str) (c : Cls) : classOf s = some c ↔ noSuffix s = c.name := by
  unfold classOf
  constructor
  · intro h
    split_ifs at h with h1 h2 h3 h4 <;> simp at h <;> subst h <;> assumption
  · intro h
    rw [h]
    cases c <;> decide +kernel

/-- **C149**. A name selects a class exactly if, in lower case, it is the name of the class with or without the suffix "proposer". -/
theorem C149_names (s : Str) (c : Cls) :
    classOf s = some c ↔ lower s = c.name ∨ lower s = c.name ++ str "proposer" := by
  rw [classOf_eq, noSuffix_eq s c.name (name_suffix c)]

example : classOf (str "MeanCovProposer") = some .meanCov := (C149_names _ _).2 (Or.inr (by decide +kernel))

/-- **C149**. The other names are refused. -/
theorem C149_other_names (prior : Box K) (mvn : List K → Val K → Bool) (s : Str)
    (hs : ∀ c : Cls, lower s ≠ c.name ∧ lower s ≠ c.name ++ str "proposer") (args : Dict String (Val K)) (rest : Dict Str (Option (Dict String (Val K)))) :
    construct (I := I) prior mvn (.str s) = .error .valueError ∧
      construct (I := I) prior mvn (.mapping ((s, some args) :: rest)) = .error .valueError := by
  have hc : classOf s = none := by
    cases h : classOf s with
    | none => rfl
    | some c =>
      rcases (C149_names s c).1 h with h1 | h1
      · exact absurd h1 (hs c).1
      · exact absurd h1 (hs c).2
  constructor
  · show construct1 prior mvn s (some []) = _
    unfold construct1
    dsimp only
    rw [hc]
  · show construct1 prior mvn s (some args) = _
    unfold construct1
    dsimp only
    rw [hc]

example : ∀ c : Cls, lower (str "PartialProposer") ≠ c.name ∧ lower (str "PartialProposer") ≠ c.name ++ str "proposer" := by
  intro c; cases c <;> decide +kernel

/-! ## What is built -/

theorem construct_named (prior : Box K) (mvn : List K → Val K → Bool) (s : Str) (c : Cls) (h : lower s = c.name ∨ lower s = c.name ++ str "proposer")
    (args : Dict String (Val K)) (rest : Dict Str (Option (Dict String (Val K)))) :
    construct (I := I) prior mvn (.mapping ((s, some args) :: rest)) = call prior mvn c (withBounds prior args) := by
  show construct1 prior mvn s (some args) = _
  unfold construct1
  dsimp only
  rw [(C149_names s c).2 h]

theorem construct_str (prior : Box K) (mvn : List K → Val K → Bool) (s : Str) :
    construct (I := I) prior mvn (.str s) = construct prior mvn (.mapping [(s, some [])]) := rfl

/-- **C149**. A name alone gives the proposer of that class, on the prior bounds: for "reference", "prior" and "uniform". -/
theorem C149_string_partial (prior : Box K) (mvn : List K → Val K → Bool) (s : Str) :
    ((lower s = str "reference" ∨ lower s = str "referenceproposer") → construct (I := I) prior mvn (.str s) = .ok (.reference prior)) ∧
    ((lower s = str "prior" ∨ lower s = str "priorproposer") → construct (I := I) prior mvn (.str s) = .ok (.prior prior)) ∧
    ((lower s = str "uniform" ∨ lower s = str "uniformproposer") → construct (I := I) prior mvn (.str s) = .ok (.uniform prior)) := by
  refine ⟨fun h => ?_, fun h => ?_, fun h => ?_⟩
  · rw [construct_str, construct_named prior mvn s .reference (h.imp (fun h => h.trans rfl) (fun h => h.trans (by decide +kernel)))]; rfl
  · rw [construct_str, construct_named prior mvn s .prior (h.imp (fun h => h.trans rfl) (fun h => h.trans (by decide +kernel)))]; rfl
  · rw [construct_str, construct_named prior mvn s .uniform (h.imp (fun h => h.trans rfl) (fun h => h.trans (by decide +kernel)))]; rfl

example : construct (K := ℚ) (I := Unit) [(0, 1)] (fun _ _ => true) (.str (str "Reference")) = .ok (.reference [(0, 1)]) :=
  (C149_string_partial _ _ _).1 (Or.inl (by decide +kernel))

/-- **C149**. Bounds given (as an array) are the ones used; other entries of the mapping are ignored. -/
theorem C149_bounds (prior b : Box K) (mvn : List K → Val K → Bool) (s : Str) (rest : Dict Str (Option (Dict String (Val K)))) :
    ((lower s = str "reference" ∨ lower s = str "referenceproposer") →
      construct (I := I) prior mvn (.mapping ((s, some [("bounds", .rows true b)]) :: rest)) = .ok (.reference b)) ∧
    ((lower s = str "prior" ∨ lower s = str "priorproposer") →
      construct (I := I) prior mvn (.mapping ((s, some [("bounds", .rows true b)]) :: rest)) = .ok (.prior b)) ∧
    ((lower s = str "uniform" ∨ lower s = str "uniformproposer") →
      construct (I := I) prior mvn (.mapping ((s, some [("bounds", .rows true b)]) :: rest)) = .ok (.uniform b)) := by
  refine ⟨fun h => ?_, fun h => ?_, fun h => ?_⟩
  · rw [construct_named prior mvn s .reference (h.imp (fun h => h.trans rfl) (fun h => h.trans (by decide +kernel)))]; rfl
  · rw [construct_named prior mvn s .prior (h.imp (fun h => h.trans rfl) (fun h => h.trans (by decide +kernel)))]; rfl
  · rw [construct_named prior mvn s .uniform (h.imp (fun h => h.trans rfl) (fun h => h.trans (by decide +kernel)))]; rfl

example : construct (K := ℚ) (I := Unit) [(0, 1)] (fun _ _ => true) (.mapping [(str "uniform", some [("bounds", .rows true [(0, 1/2)])]), (str "nonsense", none)]) =
    .ok (.uniform [(0, 1/2)]) := (C149_bounds _ _ _ _ _).2.2 (Or.inl (by decide +kernel))

/-- **C149**. `None` as bounds means the prior bounds, also if they are given so explicitly. -/
theorem C149_no_bounds (prior : Box K) (mvn : List K → Val K → Bool) (s : Str) (rest : Dict Str (Option (Dict String (Val K)))) :
    ((lower s = str "reference" ∨ lower s = str "referenceproposer") →
      construct (I := I) prior mvn (.mapping ((s, some [("bounds", .none)]) :: rest)) = .ok (.reference prior)) ∧
    ((lower s = str "prior" ∨ lower s = str "priorproposer") →
      construct (I := I) prior mvn (.mapping ((s, some [("bounds", .none)]) :: rest)) = .ok (.prior prior)) := by
  refine ⟨fun h => ?_, fun h => ?_⟩
  · rw [construct_named prior mvn s .reference (h.imp (fun h => h.trans rfl) (fun h => h.trans (by decide +kernel)))]; rfl
  · rw [construct_named prior mvn s .prior (h.imp (fun h => h.trans rfl) (fun h => h.trans (by decide +kernel)))]; rfl

example : construct (K := ℚ) (I := Unit) [(0, 1)] (fun _ _ => true) (.mapping [(str "priorProposer", some [("bounds", .none)])]) = .ok (.prior [(0, 1)]) :=
  (C149_no_bounds _ _ _ _).2 (Or.inr (by decide +kernel))

/-- **C149**. A mean and a covariance matrix that scipy accepts give a normal distribution with the mean first if asked for. The bounds are
the ones given, or those of the prior. -/
theorem C149_meancov (prior : Box K) (mvn : List K → Val K → Bool) (s : Str) (h : lower s = str "meancov" ∨ lower s = str "meancovproposer")
    (m : List K) (c : Val K) (hm : mvn m c = true) (inc : Bool) (b : Box K) (rest : Dict Str (Option (Dict String (Val K)))) :
    construct (I := I) prior mvn (.mapping ((s, some [("mean", .vec m), ("cov", c)]) :: rest)) = .ok (.meanCov prior m c false) ∧
    construct (I := I) prior mvn (.mapping ((s, some [("mean", .vec m), ("cov", c), ("include_mean", .bool inc)]) :: rest)) =
      .ok (.meanCov prior m c inc) ∧
    construct (I := I) prior mvn (.mapping ((s, some [("include_mean", .bool inc), ("bounds", .rows true b), ("cov", c), ("mean", .vec m)]) :: rest)) =
      .ok (.meanCov b m c inc) := by
  have h' : lower s = Cls.meanCov.name ∨ lower s = Cls.meanCov.name ++ str "proposer" :=
    h.imp (fun h => h.trans rfl) (fun h => h.trans (by decide +kernel))
  refine ⟨?_, ?_, ?_⟩ <;> rw [construct_named prior mvn s .meanCov h']
  · show (if mvn m c then _ else _) = _
    rw [if_pos hm]; rfl
  · show (if mvn m c then _ else _) = _
    rw [if_pos hm]; rfl
  · show (if mvn m c then _ else _) = _
    rw [if_pos hm]; rfl

example : construct (K := ℚ) (I := Unit) [(0, 1)] (fun _ _ => true) (.mapping [(str "meancov", some [("mean", .vec [1/2]), ("cov", .other)])]) =
    .ok (.meanCov [(0, 1)] [1/2] .other false) := (C149_meancov _ _ _ (Or.inl (by decide +kernel)) _ _ rfl true [] _).1

/-- **C149**. A mean and a covariance matrix that scipy refuses raise ValueError when the run is built. -/
theorem C149_meancov_refused (prior : Box K) (mvn : List K → Val K → Bool) (s : Str)
    (h : lower s = str "meancov" ∨ lower s = str "meancovproposer") (m : List K) (c : Val K) (hm : mvn m c = false)
    (rest : Dict Str (Option (Dict String (Val K)))) :
    construct (I := I) prior mvn (.mapping ((s, some [("mean", .vec m), ("cov", c)]) :: rest)) = .error .valueError := by
  rw [construct_named prior mvn s .meanCov (h.imp (fun h => h.trans rfl) (fun h => h.trans (by decide +kernel)))]
  show (if mvn m c then _ else _) = _
  rw [hm]; rfl

example : construct (K := ℚ) (I := Unit) [(0, 1)] (fun m _ => m.length = 1) (.mapping [(str "MeanCov", some [("mean", .vec [0, 0]), ("cov", .other)])]) =
    .error .valueError :=
  C149_meancov_refused _ _ _ (Or.inl (by decide +kernel)) _ _ rfl _

/-- **C149**. Options that the constructor does not know are refused. -/
theorem C149_unknown_option (prior : Box K) (mvn : List K → Val K → Bool) (s : Str) (c : Cls)
    (h : lower s = c.name ∨ lower s = c.name ++ str "proposer") (args : Dict String (Val K)) (rest : Dict Str (Option (Dict String (Val K))))
    (k : String) (hk : k ∈ args.map Prod.fst) (hu : k ≠ "bounds" ∧ (c = .meanCov → k ≠ "mean" ∧ k ≠ "cov" ∧ k ≠ "include_mean")) :
    construct (I := I) prior mvn (.mapping ((s, some args) :: rest)) = .error .typeError := by
  rw [construct_named prior mvn s c h]
  unfold call
  rw [if_pos]
  rw [List.any_eq_true]
  obtain ⟨q, hq, rfl⟩ := List.mem_map.1 hk
  refine ⟨q, ?_, ?_⟩
  · unfold withBounds
    split_ifs
    · exact hq
    · exact List.mem_append_left _ hq
  · obtain ⟨h1, h2⟩ := hu
    cases c <;> simp [Cls.keywords, h1]
    exact h2 rfl

example : construct (K := ℚ) (I := Unit) [(0, 1)] (fun _ _ => true) (.mapping [(str "prior", some [("seed", .none)])]) = .error .typeError :=
  C149_unknown_option _ _ _ .prior (Or.inl (by decide +kernel)) _ _ "seed" (by simp) ⟨by decide, by simp⟩

/-- **C149** is false for a name with `None` as arguments (as accepted for the acquisition and for the convergence criteria). -/
theorem C149_none_counterexample (prior : Box K) (mvn : List K → Val K → Bool) (s : Str) (rest : Dict Str (Option (Dict String (Val K)))) :
    construct (I := I) prior mvn (.mapping ((s, none) :: rest)) = .error .typeError := rfl

example : construct (K := ℚ) (I := Unit) [(0, 1)] (fun _ _ => true) (.mapping [(str "reference", none)]) = .error .typeError :=
  C149_none_counterexample _ _ _ _

/-- **C149** is false for the name of the normal distribution: it is recognised, but never built without a mean and a covariance. -/
theorem C149_meancov_counterexample (prior : Box K) (mvn : List K → Val K → Bool) (s : Str)
    (h : lower s = str "meancov" ∨ lower s = str "meancovproposer") : construct (I := I) prior mvn (.str s) = .error .typeError := by
  rw [construct_str, construct_named prior mvn s .meanCov (h.imp (fun h => h.trans rfl) (fun h => h.trans (by decide +kernel)))]; rfl

example : construct (K := ℚ) (I := Unit) [(0, 1)] (fun _ _ => true) (.str (str "MeanCov")) = .error .typeError :=
  C149_meancov_counterexample _ _ _ (Or.inl (by decide +kernel))

/-- **C149** is false for bounds given as lists: the uniform proposer refuses what the other ones accept. -/
theorem C149_lists_counterexample (prior b : Box K) (mvn : List K → Val K → Bool) :
    construct (I := I) prior mvn (.mapping [(str "uniform", some [("bounds", .rows false b)])]) = .error .typeError ∧
    construct (I := I) prior mvn (.mapping [(str "prior", some [("bounds", .rows false b)])]) = .ok (.prior b) ∧
    construct (I := I) prior mvn (.mapping [(str "reference", some [("bounds", .rows false b)])]) = .ok (.reference b) := by
  refine ⟨?_, ?_, ?_⟩
  · rw [construct_named prior mvn _ .uniform (Or.inl (by decide +kernel))]; rfl
  · rw [construct_named prior mvn _ .prior (Or.inl (by decide +kernel))]; rfl
  · rw [construct_named prior mvn _ .reference (Or.inl (by decide +kernel))]; rfl

example : construct (K := ℚ) (I := Unit) [(0, 1)] (fun _ _ => true) (.mapping [(str "uniform", some [("bounds", .rows false [(0, 1)])])]) = .error .typeError :=
  (C149_lists_counterexample _ _ _).1

end Construct

/-! ## Proposals -/

section Points
variable {K I : Type} [Field K] [LinearOrder K] {G : Type}

theorem checkLoop_in (R : Src K I G) (main : Bool) (b : Box K) : ∀ (n : ℕ) (s : St K I) (g : G) {q : Truth.Arg K × St K I × G},
    checkLoop R main b n s g = some q → inBounds b q.1 = true
  | 0, _, _, _, h => by cases h
  | n + 1, s, g, q, h => by
    unfold checkLoop at h
    dsimp only at h
    split_ifs at h with hc
    · cases h; exact hc
    · exact checkLoop_in R main b n _ _ h

theorem raw_p (R : Src K I G) (main : Bool) (s : St K I) (g : G) : (raw R main s g).2.1.p = s.p := by
  unfold raw
  split <;> try rfl
  split_ifs <;> rfl

theorem checkLoop_p (R : Src K I G) (main : Bool) (b : Box K) : ∀ (n : ℕ) (s : St K I) (g : G) {q : Truth.Arg K × St K I × G},
    checkLoop R main b n s g = some q → q.2.1.p = s.p
  | 0, _, _, _, h => by cases h
  | n + 1, s, g, q, h => by
    unfold checkLoop at h
    dsimp only at h
    split_ifs at h with hc
    · cases h; exact raw_p R main s g
    · rw [checkLoop_p R main b n _ _ h, raw_p]

theorem getPoint_p (R : Src K I G) (main : Bool) (fuel : ℕ) (s : St K I) (g : G) {q : Truth.Arg K × St K I × G}
    (h : getPoint R main fuel s g = some q) : q.2.1.p = s.p := by
  unfold getPoint at h
  split at h
  · exact checkLoop_p R main _ fuel s g h
  · cases h; exact raw_p R main s g

theorem initialPoint_in (R : Src K I G) (main : Bool) (prior : Box K) (fuel : ℕ) : ∀ (n : ℕ) (s : St K I) (g : G) {q : Truth.Arg K × St K I × G},
    initialPoint R main prior fuel n s g = some q →
      inBounds prior q.1 = true ∧ q.2.1.p = s.p ∧ ∀ b, s.p.checked = some b → inBounds b q.1 = true
  | 0, _, _, _, h => by cases h
  | n + 1, s, g, q, h => by
    unfold initialPoint at h
    cases hg : getPoint R main fuel s g with
    | none => rw [hg] at h; cases h
    | some r =>
      rw [hg] at h
      dsimp only at h
      split_ifs at h with hc
      · cases h
        refine ⟨hc, getPoint_p R main fuel s g hg, fun b hb => ?_⟩
        unfold getPoint at hg
        rw [hb] at hg
        exact checkLoop_in R main b fuel s g hg
      · obtain ⟨h1, h2, h3⟩ := initialPoint_in R main prior fuel n _ _ h
        have hp := getPoint_p R main fuel s g hg
        exact ⟨h1, h2.trans hp, fun b hb => h3 b (by rw [hp]; exact hb)⟩

/-- **C149**. Whatever the proposer (also one of the user), the initial points are within the prior bounds; if the class checks bounds of its own, also
within those. -/
theorem C149_inside (R : Src K I G) (main : Bool) (prior : Box K) (fuel tries : ℕ) : ∀ (n : ℕ) (s : St K I) (g : G)
    {q : List (Truth.Arg K) × St K I × G}, initialPoints R main prior fuel tries n s g = some q →
      q.1.length = n ∧ ∀ x ∈ q.1, inBounds prior x = true ∧ ∀ b, s.p.checked = some b → inBounds b x = true
  | 0, _, _, _, h => by
    cases h
    exact ⟨rfl, fun x hx => by simp at hx⟩
  | n + 1, s, g, q, h => by
    unfold initialPoints at h
    cases h1 : initialPoint R main prior fuel tries s g with
    | none => rw [h1] at h; cases h
    | some r =>
      rw [h1] at h
      dsimp only at h
      cases h2 : initialPoints R main prior fuel tries n r.2.1 r.2.2 with
      | none => rw [h2] at h; cases h
      | some t =>
        rw [h2] at h
        cases h
        obtain ⟨ha, hb, hc⟩ := initialPoint_in R main prior fuel tries s g h1
        obtain ⟨hd, he⟩ := C149_inside R main prior fuel tries n _ _ h2
        refine ⟨by simp [hd], fun x hx => ?_⟩
        rcases List.mem_cons.1 hx with rfl | hx
        · exact ⟨ha, hc⟩
        · exact ⟨(he x hx).1, fun b hb' => (he x hx).2 b (by rw [hb]; exact hb')⟩

/-- The coordinates of a proposal are between the limits; a number has to be between all of them. -/
def Within (b : Box K) : Truth.Arg K → Prop
  | .num a => ∀ q ∈ b, q.1 ≤ a ∧ a ≤ q.2
  | .vec x => ∀ (i : ℕ) (q : K × K) (v : K), b[i]? = some q → x[i]? = some v → q.1 ≤ v ∧ v ≤ q.2

theorem inBounds_within {b : Box K} {x : Truth.Arg K} (h : inBounds b x = true) : Within b x := by
  cases x with
  | num a =>
    intro q hq
    have := List.all_eq_true.1 h q hq
    simpa using this
  | vec x =>
    intro i q v hq hv
    obtain ⟨hi, rfl⟩ := List.getElem?_eq_some_iff.1 hq
    obtain ⟨hj, rfl⟩ := List.getElem?_eq_some_iff.1 hv
    unfold inBounds Tools.isInBounds at h
    have := List.all_eq_true.1 h
    have h2 := this ((List.zipWith (fun v q => Ext.ge v q.1 && Ext.le v q.2) (x.map .fin) (ext b))[i]'(by simp [ext]; omega)) (List.getElem_mem _)
    simpa [ext, Ext.ge, Ext.le] using h2

/-- **C149**. The coordinates of the initial points are between the prior limits, and between those of the proposer for the reference, the prior and
the normal distribution. -/
theorem C149_limits (R : Src K I G) (main : Bool) (prior b : Box K) (fuel tries n : ℕ) (s : St K I) (g : G)
    {q : List (Truth.Arg K) × St K I × G} (h : initialPoints R main prior fuel tries n s g = some q) :
    (∀ x ∈ q.1, Within prior x) ∧
    ((s.p = .reference b ∨ s.p = .prior b ∨ ∃ m c i, s.p = .meanCov b m c i) → ∀ x ∈ q.1, Within b x) := by
  obtain ⟨-, h2⟩ := C149_inside R main prior fuel tries n s g h
  refine ⟨fun x hx => inBounds_within (h2 x hx).1, fun hp x hx => inBounds_within ((h2 x hx).2 b ?_)⟩
  rcases hp with hp | hp | ⟨m, c, i, hp⟩ <;> rw [hp] <;> rfl

/-- Numbers for the examples: `normal` and `inst` count upwards in steps of a quarter. -/
def exSrc : Src ℚ Unit ℕ where
  ref g := ([(g : ℚ) / 4], g + 1)
  prior g := ([1 - (g : ℚ) / 4], g + 1)
  unif n g := (List.replicate n ((g % 5 : ℕ) / 4 : ℚ), g + 1)
  normal m _ g := (m.map (· + (g : ℚ) / 4), g + 1)
  inst _ g := (.vec [2 - (g : ℚ) / 4], g + 1)

example : (initialPoints exSrc true [(0, 1)] 9 9 2 (.init (.inst ())) 0).map (fun q => q.1) = some [.vec [1], .vec [3/4]] ∧
    (initialPoints exSrc true [(0, 1)] 9 9 2 (.init (.reference [(1/4, 2)])) 0).map (fun q => q.1) = some [.vec [1/4], .vec [1/2]] := by
  decide +kernel

/-- The first draw is above the limits of the prior. -/
example : (initialPoints exSrc true [(0, 3/4)] 9 9 2 (.init (.prior [(1/4, 2)])) 0).map (fun q => q.1) = some [.vec [3/4], .vec [1/2]] ∧
    ∀ q, initialPoints exSrc true [(0, 3/4)] 9 9 2 (.init (.prior [(1/4, 2)])) 0 = some q → ∀ x ∈ q.1, Within [(1/4, 2)] x :=
  ⟨by decide +kernel, fun q h => (C149_limits exSrc true _ [(1/4, 2)] 9 9 2 _ 0 h).2 (Or.inr (Or.inl rfl))⟩

/-! ### The first proposal that fits is the one used -/

/-- The state of the generator after `k` draws of the reference distribution. -/
def refG (R : Src K I G) (g : G) : ℕ → G
  | 0 => g
  | k + 1 => (R.ref (refG R g k)).2

/-- The `k`-th draw. -/
def refX (R : Src K I G) (g : G) (k : ℕ) : List K := (R.ref (refG R g k)).1

theorem refG_shift (R : Src K I G) (g : G) : ∀ k, refG R (R.ref g).2 k = refG R g (k + 1)
  | 0 => rfl
  | k + 1 => by
    show (R.ref (refG R (R.ref g).2 k)).2 = _
    rw [refG_shift R g k]
    rfl

theorem refX_shift (R : Src K I G) (g : G) (k : ℕ) : refX R (R.ref g).2 k = refX R g (k + 1) := by
  unfold refX
  rw [refG_shift]

theorem checkLoop_ref (R : Src K I G) (main u : Bool) (b b' : Box K) : ∀ (n fuel : ℕ) (g : G), n < fuel →
    (∀ k < n, inBounds b' (.vec (refX R g k)) = false) → inBounds b' (.vec (refX R g n)) = true →
    checkLoop R main b' fuel ⟨.reference b, u⟩ g = some (.vec (refX R g n), ⟨.reference b, u⟩, refG R g (n + 1))
  | n, 0, _, h, _, _ => by omega
  | 0, fuel + 1, g, h, h1, h2 => by
    unfold checkLoop
    dsimp only
    have : inBounds b' (raw R main ⟨.reference b, u⟩ g).1 = true := h2
    rw [if_pos this]
    rfl
  | n + 1, fuel + 1, g, h, h1, h2 => by
    unfold checkLoop
    dsimp only
    have : inBounds b' (raw R main ⟨.reference b, u⟩ g).1 = false := h1 0 (by omega)
    rw [if_neg (by rw [this]; decide)]
    have ih := checkLoop_ref R main u b b' n fuel (R.ref g).2 (by omega) (fun k hk => by rw [refX_shift]; exact h1 (k + 1) (by omega))
      (by rw [refX_shift]; exact h2)
    rw [refX_shift, refG_shift] at ih
    exact ih

/-- **C149**. With the reference distribution the initial point is the first of the draws that is within both the bounds of the proposer and those of the prior,
if there is one: the search ends, and none is skipped. -/
theorem C149_first (R : Src K I G) (main u : Bool) (prior b : Box K) (fuel : ℕ) : ∀ (n tries : ℕ) (g : G), n < fuel → n < tries →
    (∀ k < n, ¬ (inBounds b (.vec (refX R g k)) = true ∧ inBounds prior (.vec (refX R g k)) = true)) →
    inBounds b (.vec (refX R g n)) = true → inBounds prior (.vec (refX R g n)) = true →
    initialPoint R main prior fuel tries ⟨.reference b, u⟩ g = some (.vec (refX R g n), ⟨.reference b, u⟩, refG R g (n + 1)) := by
  intro n
  induction n using Nat.strong_induction_on with
  | _ n ih =>
    intro tries g hf ht hno hb hp
    obtain ⟨t, rfl⟩ : ∃ t, tries = t + 1 := ⟨tries - 1, by omega⟩
    -- the first draw within `b`
    classical
    have hex : ∃ j, inBounds b (.vec (refX R g j)) = true := ⟨n, hb⟩
    obtain ⟨j, hj, hjmin⟩ : ∃ j, inBounds b (.vec (refX R g j)) = true ∧ ∀ k < j, inBounds b (.vec (refX R g k)) = false :=
      ⟨Nat.find hex, Nat.find_spec hex, fun k hk => by simpa using Nat.find_min hex hk⟩
    have hjn : j ≤ n := by
      by_contra hlt
      have := hjmin n (by omega)
      rw [hb] at this
      cases this
    unfold initialPoint
    have hg : getPoint R main fuel ⟨.reference b, u⟩ g = some (.vec (refX R g j), ⟨.reference b, u⟩, refG R g (j + 1)) :=
      checkLoop_ref R main u b b j fuel g (by omega) hjmin hj
    rw [hg]
    dsimp only
    by_cases hpj : inBounds prior (.vec (refX R g j)) = true
    · rw [if_pos hpj]
      have : j = n := by
        by_contra hne
        exact hno j (by omega) ⟨hj, hpj⟩
      subst this
      rfl
    · rw [if_neg hpj]
      have hlt : j < n := by
        rcases Nat.lt_or_ge j n with h | h
        · exact h
        · have : j = n := by omega
          subst this
          exact absurd hp hpj
      have hshift : ∀ i k, refG R (refG R g i) k = refG R g (i + k) := by
        intro i k
        induction k with
        | zero => rfl
        | succ k ihk =>
          show (R.ref (refG R (refG R g i) k)).2 = _
          rw [ihk]
          rfl
      have hshiftX : ∀ i k, refX R (refG R g i) k = refX R g (i + k) := by
        intro i k
        unfold refX
        rw [hshift]
      have := ih (n - j - 1) (by omega) t (refG R g (j + 1)) (by omega) (by omega)
        (fun k hk => by rw [hshiftX]; exact hno _ (by omega))
        (by rw [hshiftX]; convert hb using 4; omega) (by rw [hshiftX]; convert hp using 4; omega)
      rw [this, hshiftX, hshift]
      have e1 : j + 1 + (n - j - 1) = n := by omega
      have e2 : j + 1 + (n - j - 1 + 1) = n + 1 := by omega
      rw [e1, e2]

example : refX exSrc 0 2 = [1/2] ∧ initialPoint exSrc true [(1/2, 1)] 9 9 ⟨.reference [(1/4, 3)], true⟩ 0 =
    some (.vec (refX exSrc 0 2), ⟨.reference [(1/4, 3)], true⟩, refG exSrc 0 3) :=
  ⟨by decide +kernel, C149_first exSrc true true [(1/2, 1)] [(1/4, 3)] 9 2 9 0 (by omega) (by omega) (by decide +kernel) (by decide +kernel) (by decide +kernel)⟩

/-- **C149** is false for bounds apart from those of the prior (accepted when the proposer is built): no initial point is ever found, and the loop does
not end. -/
theorem C149_disjoint_counterexample [IsStrictOrderedRing K] (R : Src K I G) (hR : ∀ n g, (R.unif n g).1.length = n ∧ ∀ v ∈ (R.unif n g).1, 0 ≤ v ∧ v ≤ 1)
    (main u : Bool) (q p : K × K) (hq : q.1 ≤ q.2) (hd : p.2 < q.1) (b prior : Box K) (fuel : ℕ) : ∀ (tries : ℕ) (g : G),
    initialPoint R main (p :: prior) fuel tries ⟨.uniform (q :: b), u⟩ g = none
  | 0, _ => rfl
  | n + 1, g => by
    unfold initialPoint
    show (if inBounds (p :: prior) (.vec (uniformPoint (q :: b) (R.unif (q :: b).length g).1)) = true then _ else
      initialPoint R main (p :: prior) fuel n ⟨.uniform (q :: b), u⟩ (R.unif (q :: b).length g).2) = none
    rw [if_neg, C149_disjoint_counterexample R hR main u q p hq hd b prior fuel n]
    obtain ⟨h1, h2⟩ := hR (q :: b).length g
    cases hu : (R.unif (q :: b).length g).1 with
    | nil => rw [hu] at h1; simp at h1
    | cons v vs =>
      have hv := h2 v (by rw [hu]; simp)
      intro hin
      have : (Ext.fin (q.1 + (q.2 - q.1) * v)).le (Ext.fin p.2) = true := by
        unfold inBounds ext uniformPoint at hin
        simp only [List.zipWith_cons_cons, List.map_cons] at hin
        exact ((Tools.isInBounds_cons _ _ _ _).1 hin).1.2
      have hle : q.1 + (q.2 - q.1) * v ≤ p.2 := by simpa [Ext.le] using this
      have : 0 ≤ (q.2 - q.1) * v := mul_nonneg (by linarith) hv.1
      linarith

example : initialPoint exSrc true [(0, 1)] 9 100 ⟨.uniform [(2, 3)], true⟩ 0 = none :=
  C149_disjoint_counterexample exSrc (fun n g => ⟨by simp [exSrc], fun v hv => by
    simp only [exSrc, List.mem_replicate] at hv
    rw [hv.2]
    have h : g % 5 ≤ 4 := by omega
    have h' : ((g % 5 : ℕ) : ℚ) ≤ 4 := by exact_mod_cast h
    have h0 : (0 : ℚ) ≤ ((g % 5 : ℕ) : ℚ) := by positivity
    constructor <;> linarith⟩) true true (2, 3) (0, 1) (by norm_num) (by norm_num) [] [] 9 100 0

/-! ### The mean -/

/-- Proposals of a proposer, one after the other. -/
def gets (R : Src K I G) (main : Bool) (fuel : ℕ) : ℕ → St K I → G → Option (List (Truth.Arg K) × G)
  | 0, _, g => some ([], g)
  | n + 1, s, g => (getPoint R main fuel s g).bind fun q => (gets R main fuel n q.2.1 q.2.2).map fun r => (q.1 :: r.1, r.2)

theorem raw_used (R : Src K I G) (main : Bool) (b : Box K) (m : List K) (c : Val K) (i u : Bool) (h : u = true ∨ main = false) (g : G) :
    raw R main ⟨.meanCov b m c i, u⟩ g = (squeeze (R.normal m c g).1, ⟨.meanCov b m c i, true⟩, (R.normal m c g).2) := by
  unfold raw
  dsimp only
  rw [if_neg]
  rintro ⟨h1, h2⟩
  rcases h with h | h
  · rw [h] at h1; cases h1
  · rw [h] at h2; cases h2

theorem checkLoop_sim (R : Src K I G) (main : Bool) (b b' : Box K) (m : List K) (c : Val K) (i j u v : Bool) (hu : u = true ∨ main = false)
    (hv : v = true ∨ main = false) : ∀ (n : ℕ) (g : G),
    (checkLoop R main b' n ⟨.meanCov b m c i, u⟩ g).map (fun q => (q.1, q.2.2)) =
      (checkLoop R main b' n ⟨.meanCov b m c j, v⟩ g).map (fun q => (q.1, q.2.2)) ∧
    ∀ q, checkLoop R main b' n ⟨.meanCov b m c i, u⟩ g = some q → q.2.1 = ⟨.meanCov b m c i, true⟩
  | 0, g => ⟨rfl, fun q h => by cases h⟩
  | n + 1, g => by
    obtain ⟨h1, h2⟩ := checkLoop_sim R main b b' m c i j true true (Or.inl rfl) (Or.inl rfl) n (R.normal m c g).2
    constructor
    · unfold checkLoop
      dsimp only
      rw [raw_used R main b m c i u hu, raw_used R main b m c j v hv]
      dsimp only
      split_ifs
      · rfl
      · exact h1
    · intro q h
      unfold checkLoop at h
      dsimp only at h
      rw [raw_used R main b m c i u hu] at h
      dsimp only at h
      split_ifs at h
      · cases h; rfl
      · exact h2 q h

theorem gets_sim (R : Src K I G) (main : Bool) (fuel : ℕ) (b : Box K) (m : List K) (c : Val K) (i j : Bool) : ∀ (n : ℕ) (u v : Bool),
    (u = true ∨ main = false) → (v = true ∨ main = false) → ∀ g : G,
    gets R main fuel n ⟨.meanCov b m c i, u⟩ g = gets R main fuel n ⟨.meanCov b m c j, v⟩ g
  | 0, _, _, _, _, _ => rfl
  | n + 1, u, v, hu, hv, g => by
    unfold gets getPoint
    show ((checkLoop R main b fuel ⟨.meanCov b m c i, u⟩ g).bind _) = ((checkLoop R main b fuel ⟨.meanCov b m c j, v⟩ g).bind _)
    obtain ⟨h1, h2⟩ := checkLoop_sim R main b b m c i j u v hu hv fuel g
    have h3 := (checkLoop_sim R main b b m c j i v u hv hu fuel g).2
    cases ha : checkLoop R main b fuel ⟨.meanCov b m c i, u⟩ g with
    | none =>
      rw [ha] at h1
      cases hb : checkLoop R main b fuel ⟨.meanCov b m c j, v⟩ g with
      | none => rfl
      | some q => rw [hb] at h1; cases h1
    | some q =>
      rw [ha] at h1
      cases hb : checkLoop R main b fuel ⟨.meanCov b m c j, v⟩ g with
      | none => rw [hb] at h1; cases h1
      | some r =>
        rw [hb] at h1
        simp only [Option.map_some, Option.some.injEq, Prod.mk.injEq] at h1
        have hq := h2 q ha
        have hr := h3 r hb
        simp only [Option.bind_some]
        rw [h1.1, h1.2, hq, hr, gets_sim R main fuel b m c i j n true true (Or.inl rfl) (Or.inl rfl)]

/-- **C149**. The option `include_mean` adds the mean as the first proposal of the main process, if it is within the bounds, and changes
nothing else: not the proposals that follow, not those of the other processes, and nothing if the mean is outside of the bounds. -/
theorem C149_mean (R : Src K I G) (fuel n : ℕ) (b : Box K) (m : List K) (c : Val K) (g : G) :
    (inBounds b (.vec m) = true →
      gets R true (fuel + 1) (n + 1) (.init (.meanCov b m c true)) g =
        (gets R true (fuel + 1) n (.init (.meanCov b m c false)) g).map fun q => (.vec m :: q.1, q.2)) ∧
    (inBounds b (.vec m) = false → 
      gets R true (fuel + 1) (n + 1) (.init (.meanCov b m c true)) g =
        ((checkLoop R true b fuel (.init (.meanCov b m c false)) g).bind fun q =>
          (gets R true (fuel + 1) n (.init (.meanCov b m c false)) q.2.2).map fun r => (q.1 :: r.1, r.2))) ∧
    gets R false fuel n (.init (.meanCov b m c true)) g = gets R false fuel n (.init (.meanCov b m c false)) g := by
  have hraw : raw R true ⟨.meanCov b m c true, false⟩ g = (.vec m, ⟨.meanCov b m c true, true⟩, g) := rfl
  refine ⟨fun h => ?_, fun h => ?_, ?_⟩
  · show ((checkLoop R true b (fuel + 1) ⟨.meanCov b m c true, false⟩ g).bind _) = _
    have : checkLoop R true b (fuel + 1) ⟨.meanCov b m c true, false⟩ g = some (.vec m, ⟨.meanCov b m c true, true⟩, g) := by
      unfold checkLoop
      dsimp only
      rw [hraw]
      exact if_pos h
    rw [this]
    show Option.map _ (gets R true (fuel + 1) n ⟨.meanCov b m c true, true⟩ g) = _
    rw [gets_sim R true (fuel + 1) b m c true false n true true (Or.inl rfl) (Or.inl rfl)]
    rfl
  · show ((checkLoop R true b (fuel + 1) ⟨.meanCov b m c true, false⟩ g).bind _) = _
    have : checkLoop R true b (fuel + 1) ⟨.meanCov b m c true, false⟩ g = checkLoop R true b fuel ⟨.meanCov b m c true, true⟩ g := by
      conv_lhs => unfold checkLoop
      dsimp only
      rw [hraw]
      exact if_neg (by rw [h]; decide)
    rw [this]
    show _ = ((checkLoop R true b fuel ⟨.meanCov b m c false, true⟩ g).bind _)
    obtain ⟨h1, h2⟩ := checkLoop_sim R true b b m c true false true true (Or.inl rfl) (Or.inl rfl) fuel g
    cases ha : checkLoop R true b fuel ⟨.meanCov b m c true, true⟩ g with
    | none =>
      rw [ha] at h1
      cases hb : checkLoop R true b fuel ⟨.meanCov b m c false, true⟩ g with
      | none => rfl
      | some q => rw [hb] at h1; cases h1
    | some q =>
      rw [ha] at h1
      cases hb : checkLoop R true b fuel ⟨.meanCov b m c false, true⟩ g with
      | none => rw [hb] at h1; cases h1
      | some r =>
        rw [hb] at h1
        simp only [Option.map_some, Option.some.injEq, Prod.mk.injEq] at h1
        simp only [Option.bind_some]
        rw [h1.1, h1.2, h2 q ha, gets_sim R true (fuel + 1) b m c true false n true true (Or.inl rfl) (Or.inl rfl)]
        rfl
  · exact gets_sim R false fuel b m c true false n _ _ (Or.inr rfl) (Or.inr rfl) g

example : (gets exSrc true 5 3 (.init (.meanCov [(0, 1), (0, 1)] [1/4, 1/2] .other true)) 0).map Prod.fst = some [.vec [1/4, 1/2], .vec [1/4, 1/2], .vec [1/2, 3/4]] ∧
    (gets exSrc true 5 2 (.init (.meanCov [(0, 1), (0, 1)] [1/4, 1/2] .other false)) 0).map Prod.fst = some [.vec [1/4, 1/2], .vec [1/2, 3/4]] ∧
    inBounds [(0, 1), (0, 1)] (.vec [(1/4 : ℚ), 1/2]) = true := by decide +kernel

/-! ### One dimension -/

/-- **C149** is false in one dimension for the normal distribution: every proposal but the mean is a number, and the likelihood, which is always wrapped then,
raises when it is called with a number. -/
theorem C149_one_dimension_counterexample {V R' : Type} (f w : Truth.Fun V R') (hw : Truth.wrapLikelihood f 1 = .ok w) (v : V) :
    w.call [.num v] = .error .typeError := by
  unfold Truth.wrapLikelihood at hw
  split_ifs at hw with h1 h2
  · cases hw; rfl
  · exact absurd (Or.inl h2.1) h1

/-- The proposals, in one dimension and in others: reference, prior and uniform proposals are always vectors. -/
theorem C149_shapes (R : Src K I G) (main u : Bool) (b : Box K) (m : List K) (c : Val K) (i : Bool) (g : G) (hu : u = true ∨ main = false) :
    ((R.normal m c g).1.length = 1 → ∃ a, (raw R main ⟨.meanCov b m c i, u⟩ g).1 = .num a) ∧
    ((R.normal m c g).1.length ≠ 1 → (raw R main ⟨.meanCov b m c i, u⟩ g).1 = .vec (R.normal m c g).1) ∧
    (raw R main ⟨.reference b, u⟩ g).1 = .vec (R.ref g).1 ∧ (raw R main ⟨.prior b, u⟩ g).1 = .vec (R.prior g).1 ∧
    (∀ g, (R.unif b.length g).1.length = b.length → ∃ x, (raw R main ⟨.uniform b, u⟩ g).1 = .vec x ∧ x.length = b.length) := by
  rw [raw_used R main b m c i u hu]
  dsimp only
  refine ⟨fun h => ?_, fun h => ?_, rfl, rfl, fun g h => ⟨_, rfl, ?_⟩⟩
  · match hl : (R.normal m c g).1, h with
    | [a], _ => exact ⟨a, rfl⟩
  · match hl : (R.normal m c g).1, h with
    | [], _ => rfl
    | [a], h => exact absurd rfl h
    | a :: a' :: l, _ => rfl
  · unfold uniformPoint
    simp [h]

example : (raw exSrc true ⟨.meanCov [(0, 1)] [1/2] .other false, true⟩ 1).1 = .num (3/4) ∧
    Truth.wrapLikelihood (R := ℚ) (V := ℚ) ⟨[⟨.posOrKw, false⟩], fun _ => .ok 0⟩ 1 = .ok (Truth.wrapped ⟨[⟨.posOrKw, false⟩], fun _ => .ok 0⟩) :=
  ⟨by decide +kernel, rfl⟩

end Points

end GPry.InitProp
