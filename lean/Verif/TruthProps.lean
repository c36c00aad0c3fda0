import Verif.Truth
import Verif.ToolsProps
import Mathlib.Data.List.Nodup
import Std.Data.String.ToNat

set_option linter.all false

namespace GPry.Truth

open GPry

variable {V R : Type*}

/-! ## C41 -/

theorem accepts_one : accepts [⟨.posOrKw, false⟩] 1 = true := by decide

theorem wrapped_call (f : Fun V R) (X : Arg V) : (wrapped f).call [X] = f.star X := by
  unfold Fun.call
  rw [if_pos (by exact accepts_one)]
  rfl

/-- **C41**, partial: a function with as many positional parameters as there are dimensions is called with the coordinates, in
order; a function of one vector is called with the vector, if there is more than one dimension. (Missing: the second, in one
dimension.) -/
theorem C41_values_partial (f : Fun V R) (d : ℕ) :
    (nArgs f.sig = d → ∃ g, wrapLikelihood f d = .ok g ∧ ∀ x : List V, x.length = d → g.call [.vec x] = f.call (x.map .num)) ∧
    (f.sig = [⟨.posOrKw, false⟩] → 2 ≤ d → ∃ g, wrapLikelihood f d = .ok g ∧ ∀ x : List V, g.call [.vec x] = f.call [.vec x]) := by
  refine ⟨fun h => ⟨wrapped f, ?_, fun x _ => wrapped_call f _⟩, fun h hd => ⟨f, ?_, fun _ => rfl⟩⟩
  · unfold wrapLikelihood; rw [if_pos (Or.inl h)]
  · unfold wrapLikelihood
    have h1 : nArgs f.sig = 1 := by rw [h]; rfl
    have h2 : nKeyword f.sig = 0 := by rw [h]; rfl
    rw [if_neg (by omega), if_pos ⟨h1, by rw [h]; rfl, by rw [h]; rfl⟩]

/-- C41: exactly which signatures are refused. -/
theorem C41_refused (f : Fun V R) (d : ℕ) : wrapLikelihood f d = .error .valueError ↔
    (f.sig.filter fun p => p.kind = .posOnly ∨ p.kind = .posOrKw).length ≠ d ∧
    (f.sig.filter fun p => p.kind = .posOnly ∨ p.kind = .posOrKw).length + (f.sig.filter fun p => p.kind = .kwOnly).length ≠ d ∧
    ((f.sig.filter fun p => p.kind = .posOnly ∨ p.kind = .posOrKw).length = 1 → ∃ p ∈ f.sig, p.kind = .varPos ∨ p.kind = .varKw) := by
  have e : (f.sig.filter fun p => p.kind = .posOnly ∨ p.kind = .posOrKw).length = nArgs f.sig := by
    unfold nArgs isPositional
    simp only [Bool.decide_or]
  have e2 : (f.sig.filter fun p => p.kind = .kwOnly).length = nKeyword f.sig := rfl
  have e3 : (∃ p ∈ f.sig, p.kind = .varPos ∨ p.kind = .varKw) ↔ hasVarPos f.sig = true ∨ hasVarKw f.sig = true := by
    simp only [hasVarPos, hasVarKw, List.any_eq_true, decide_eq_true_eq]
    constructor
    · rintro ⟨p, hp, h | h⟩
      exacts [Or.inl ⟨p, hp, h⟩, Or.inr ⟨p, hp, h⟩]
    · rintro (⟨p, hp, h⟩ | ⟨p, hp, h⟩)
      exacts [⟨p, hp, Or.inl h⟩, ⟨p, hp, Or.inr h⟩]
  rw [e, e2, e3]
  unfold wrapLikelihood
  split_ifs with h1 h2
  · simp; tauto
  · simp [h2]
  · simp only [true_iff]
    refine ⟨by tauto, by tauto, fun h => ?_⟩
    by_contra hc
    push Not at hc
    exact h2 ⟨h, by simpa using hc.1, by simpa using hc.2⟩

/-- **C41**, partial: in two or more dimensions, wrapping what was already wrapped changes nothing, so a truth made again from
`as_dict` has the same likelihood. -/
theorem C41_reload_partial (f g : Fun V R) (d : ℕ) (hd : 2 ≤ d) (h : wrapLikelihood f d = .ok g) : wrapLikelihood g d = .ok g := by
  unfold wrapLikelihood at h
  split_ifs at h with h1 h2
  · cases h
    unfold wrapLikelihood
    have e1 : nArgs (wrapped f).sig = 1 := rfl
    have e2 : nKeyword (wrapped f).sig = 0 := rfl
    rw [if_neg (by omega), if_pos ⟨e1, rfl, rfl⟩]
  · cases h
    unfold wrapLikelihood
    rw [if_neg h1, if_pos h2]

/-- **C41** for the truth as a whole: same posterior after `as_dict` and `get_truth`. -/
theorem C41_truth_partial (f : Fun (Ext ℝ) (Ext ℝ)) (bounds : List (Ext ℝ × Ext ℝ)) (hd : 2 ≤ bounds.length) {t : Truth}
    (h : init f bounds = .ok t) : reload t = .ok t := by
  unfold init at h
  split at h
  · rename_i g hg
    cases h
    unfold reload init
    rw [C41_reload_partial f g _ hd hg]
  · cases h

/-- **C41** is false in one dimension: whatever the function, the truth made again from `as_dict` raises `TypeError` at every
point. -/
theorem C41_reload_counterexample (f g : Fun V R) (h : wrapLikelihood f 1 = .ok g) (hf : nArgs f.sig = 1) :
    ∃ g', wrapLikelihood g 1 = .ok g' ∧ ∀ v : V, g'.call [.vec [v]] = .error .typeError := by
  unfold wrapLikelihood at h
  rw [if_pos (Or.inl hf)] at h
  cases h
  refine ⟨wrapped (wrapped f), ?_, fun v => ?_⟩
  · unfold wrapLikelihood
    exact if_pos (Or.inl rfl)
  · rw [wrapped_call]
    unfold Fun.star
    dsimp only
    rw [List.map_singleton, wrapped_call]
    rfl

/-- **C41** is false of functions of a vector in one dimension: they get a number. -/
theorem C41_vector_counterexample (f : Fun V R) (hf : f.sig = [⟨.posOrKw, false⟩]) : ∃ g, wrapLikelihood f 1 = .ok g ∧
    ∀ v : V, g.call [.vec [v]] = f.call [.num v] := by
  refine ⟨wrapped f, ?_, fun v => wrapped_call f _⟩
  unfold wrapLikelihood
  rw [if_pos (Or.inl (by rw [hf]; rfl))]

/-- **C41** is false of a function of a vector with an option, in two dimensions: it gets two numbers. -/
theorem C41_option_counterexample (f : Fun V R) (hf : f.sig = [⟨.posOrKw, false⟩, ⟨.posOrKw, true⟩]) :
    ∃ g, wrapLikelihood f 2 = .ok g ∧ ∀ u v : V, g.call [.vec [u, v]] = f.call [.num u, .num v] := by
  refine ⟨wrapped f, ?_, fun u v => wrapped_call f _⟩
  unfold wrapLikelihood
  rw [if_pos (Or.inl (by rw [hf]; rfl))]

/-- **C41** is false of keyword parameters: they are counted as if they could be passed by position, and every call raises
`TypeError`. -/
theorem C41_keyword_counterexample (f : Fun V R) (hf : f.sig = [⟨.posOrKw, false⟩, ⟨.kwOnly, false⟩]) :
    ∃ g, wrapLikelihood f 2 = .ok g ∧ ∀ u v : V, g.call [.vec [u, v]] = .error .typeError := by
  refine ⟨wrapped f, ?_, fun u v => ?_⟩
  · unfold wrapLikelihood
    rw [if_pos (Or.inr (by rw [hf]; rfl))]
  · rw [wrapped_call]
    unfold Fun.star Fun.call
    dsimp only
    rw [if_neg (by rw [hf]; simp [accepts, nArgs, isPositional, hasVarPos])]

/-- Functions of the examples: the difference of two coordinates, and the sum of a vector. -/
def exDiff : Fun ℤ ℤ where
  sig := [⟨.posOrKw, false⟩, ⟨.posOrKw, false⟩]
  body
    | [.num a, .num b] => .ok (a - b)
    | _ => .error .user

def exSum : Fun ℤ ℤ where
  sig := [⟨.posOrKw, false⟩]
  body
    | [.vec x] => .ok x.sum
    | _ => .error .user

/-- C41: the hypotheses of the theorems hold of these. -/
example : nArgs exDiff.sig = 2 ∧ ((wrapLikelihood exDiff 2).bind fun g => g.call [.vec [5, 3]]) = .ok 2 ∧
    ((wrapLikelihood exSum 3).bind fun g => g.call [.vec [5, 3, 1]]) = .ok 9 ∧
    ((wrapLikelihood exSum 1).bind fun g => g.call [.vec [5]]) = .error .user ∧
    ((wrapLikelihood exDiff 3).bind fun g => g.call [.vec [5]]) = .error .valueError := by
  refine ⟨rfl, rfl, rfl, rfl, rfl⟩

/-! ## C84 -/

theorem pyDict_nodup (l : List (String × String)) (h : (l.map Prod.fst).Nodup) : pyDict l = l := by
  have key : ∀ (l acc : List (String × String)), ((acc ++ l).map Prod.fst).Nodup → l.foldl dictSet acc = acc ++ l := by
    intro l
    induction l with
    | nil => intro acc _; simp
    | cons q l ih =>
      intro acc hn
      rw [List.foldl_cons]
      have hq : q.1 ∉ acc.map Prod.fst := by
        rw [List.map_append, List.map_cons] at hn
        have := (List.nodup_append.1 hn).2.2
        intro hc
        exact this _ hc q.1 (List.mem_cons_self) rfl
      have : dictSet acc q = acc ++ [q] := by unfold dictSet; rw [if_neg hq]
      rw [this, ih _ (by simpa using hn)]
      simp
  exact key l [] h

theorem generic_nodup (pre : String) (d : ℕ) : (generic pre d).Nodup := by
  unfold generic
  refine List.Nodup.map ?_ List.nodup_range
  intro a b h
  have h2 : Nat.repr (a + 1) = Nat.repr (b + 1) := by
    have h1 := congrArg String.toList h
    rw [String.toList_append, String.toList_append] at h1
    exact String.toList_injective (List.append_cancel_left h1)
  have := Nat.repr_injective h2
  omega

/-- What distinct names mean for each form of the argument. -/
def Params.distinct : Params → Prop
  | .none => True
  | .names l => l.Nodup
  | .labelled l => (l.map Prod.fst).Nodup

/-- **C84**, partial: with distinct names (or none given), names, labels and reference bounds survive `as_dict` and `get_truth`.
(Missing: a sequence of names with repetitions is accepted, see `C84_repeated_counterexample`.) -/
theorem C84_names_partial (d : ℕ) (p : Params) (hp : p.distinct) {q : List String × List String} (h : setNames d p = .ok q) :
    setNames d (namesDict q) = .ok q ∧ q.1.length = d ∧ q.2.length = d := by
  have main : ∀ q : List String × List String, q.1.Nodup → q.1.length = d → q.2.length = d → setNames d (namesDict q) = .ok q ∧
      q.1.length = d ∧ q.2.length = d := by
    rintro ⟨a, b⟩ h1 h2 h3
    dsimp only at h1 h2 h3
    refine ⟨?_, h2, h3⟩
    unfold namesDict
    dsimp only
    rw [pyDict_nodup _ (by rw [List.map_fst_zip (by omega)]; exact h1)]
    unfold setNames
    dsimp only
    rw [if_neg (by rw [List.length_zip]; omega), List.map_fst_zip (by omega), List.map_snd_zip (by omega)]
  cases p with
  | none =>
    cases h
    exact main _ (generic_nodup _ _) (by simp [generic]) (by simp [generic])
  | names l =>
    unfold setNames at h
    dsimp only at h
    split_ifs at h with hl
    · cases h
      exact main (l, l) hp (by simpa using hl) (by simpa using hl)
  | labelled l =>
    unfold setNames at h
    dsimp only at h
    split_ifs at h with hl
    · cases h
      exact main (l.map Prod.fst, l.map Prod.snd) hp (by simpa using hl) (by simpa using hl)

theorem C84_ref_bounds {B : Type*} (prior : List (B × B)) (ref : Option (List (Option (List B))))
    {q : List (Option (List B)) × List (List B)} (h : setRef prior ref = .ok q) :
    setRef prior (some q.1) = .ok q ∧ q.2.length = prior.length ∧
    ∀ i (hi : i < q.2.length) (hi' : i < prior.length), (∃ v, (q.1[i]?).join = some v ∧ q.2[i] = v) ∨
      ((q.1[i]?).join = none ∧ q.2[i] = [(prior[i]).1, (prior[i]).2]) := by
  have key : ∀ l : List (Option (List B)), l.length = prior.length →
      (List.zipWith (fun (v : Option (List B)) (b : B × B) => v.getD [b.1, b.2]) l prior).length = prior.length ∧
      ∀ i (hi : i < (List.zipWith (fun (v : Option (List B)) (b : B × B) => v.getD [b.1, b.2]) l prior).length)
        (hi' : i < prior.length), (∃ v, (l[i]?).join = some v ∧
          (List.zipWith (fun (v : Option (List B)) (b : B × B) => v.getD [b.1, b.2]) l prior)[i] = v) ∨
        ((l[i]?).join = none ∧
          (List.zipWith (fun (v : Option (List B)) (b : B × B) => v.getD [b.1, b.2]) l prior)[i] = [(prior[i]).1, (prior[i]).2]) := by
    intro l hl
    refine ⟨by rw [List.length_zipWith]; omega, fun i hi hi' => ?_⟩
    rw [List.getElem_zipWith, List.getElem?_eq_getElem (by omega : i < l.length)]
    cases hv : l[i] with
    | none => right; exact ⟨rfl, rfl⟩
    | some v => left; exact ⟨v, rfl, rfl⟩
  cases ref with
  | none =>
    cases h
    have hz : List.zipWith (fun (v : Option (List B)) (b : B × B) => v.getD [b.1, b.2]) (List.replicate prior.length none) prior =
        prior.map fun b => [b.1, b.2] := by
      clear key
      induction prior with
      | nil => rfl
      | cons b bs ih => simp [List.replicate_succ, ih]
    have := key (List.replicate prior.length none) (by simp)
    rw [hz] at this
    refine ⟨?_, this⟩
    unfold setRef
    dsimp only
    rw [if_neg (by simp), if_neg (by simp), hz]
  | some l =>
    have h' := h
    unfold setRef at h
    dsimp only at h
    split_ifs at h with h1 h2
    · cases h
      refine ⟨h', key l (by simpa using h1)⟩

/-- **C84** is false of repeated names: accepted at the beginning, and not when loading. -/
theorem C84_repeated_counterexample : setNames 2 (.names ["a", "a"]) = .ok (["a", "a"], ["a", "a"]) ∧
    setNames 2 (namesDict (["a", "a"], ["a", "a"])) = .error .typeError := by
  constructor <;> rfl

/-- C84: labelled names. -/
example : (Params.labelled [("a", "\\alpha"), ("b", "\\beta")]).distinct ∧
    setNames 2 (.labelled [("a", "\\alpha"), ("b", "\\beta")]) = .ok (["a", "b"], ["\\alpha", "\\beta"]) ∧
    setNames 2 .none = .ok (["x_1", "x_2"], ["x_{1}", "x_{2}"]) := by
  refine ⟨by unfold Params.distinct; decide, rfl, by decide +kernel⟩

example : setRef [(0, 10), (0, 20)] (some [none, some [4, 5]]) = .ok ([none, some [4, 5]], [[0, 10], [4, 5]]) := rfl

/-! ## C40 -/

theorem volume_fin : ∀ bounds : List (ℝ × ℝ), (∀ b ∈ bounds, b.1 < b.2) →
    ((bounds.map fun b => ((.fin b.1, .fin b.2) : Ext ℝ × Ext ℝ)).map fun b => log (b.2.sub b.1)).foldr add (.fin 0) =
      .fin (bounds.map fun b => Real.log (b.2 - b.1)).sum
  | [], _ => rfl
  | b :: bs, h => by
    have hb : 0 < b.2 - b.1 := sub_pos.2 (h b (List.mem_cons_self))
    rw [List.map_cons, List.map_cons, List.foldr_cons, volume_fin bs fun b hb => h b (List.mem_cons_of_mem _ hb), List.map_cons,
      List.sum_cons]
    show add (log (.fin (b.2 - b.1))) _ = _
    unfold log
    dsimp only
    rw [if_pos hb]
    rfl

/-- **C40**, partial: with finite bounds, the likelihood is called (once, with the point) if and only if the point is inside; there, the
result is minus the logarithm of the volume plus the log-likelihood; outside, it is `-inf`. -/
theorem C40_bounds_partial (t : Truth) (bounds : List (ℝ × ℝ)) (hb : t.bounds = bounds.map fun b => (.fin b.1, .fin b.2))
    (hlt : ∀ b ∈ bounds, b.1 < b.2) (x : List (Ext ℝ)) (hx : x.length = bounds.length) :
    ((∃ v : List ℝ, x = v.map .fin ∧ List.Forall₂ (fun v b => b.1 ≤ v ∧ v ≤ b.2) v bounds) →
      (logp t x).1 = [x] ∧ (∀ l, t.loglike.call [.vec x] = .ok l →
        (logp t x).2 = .ok (add (.fin (-(bounds.map fun b => Real.log (b.2 - b.1)).sum)) l)) ∧
      (∀ e, t.loglike.call [.vec x] = .error e → (logp t x).2 = .error e)) ∧
    ((¬ ∃ v : List ℝ, x = v.map .fin ∧ List.Forall₂ (fun v b => b.1 ≤ v ∧ v ≤ b.2) v bounds) →
      logp t x = ([], .ok .negInf)) := by
  have hin := Tools.C46_closed_box bounds x hx
  rw [← hb] at hin
  have hvol : logPriorVolume t = .fin (bounds.map fun b => Real.log (b.2 - b.1)).sum := by
    unfold logPriorVolume
    rw [hb]
    exact volume_fin bounds hlt
  refine ⟨fun h => ?_, fun h => ?_⟩
  · have hlp : logprior t x = .fin (-(bounds.map fun b => Real.log (b.2 - b.1)).sum) := by
      unfold logprior
      rw [if_pos (hin.2 h), hvol]
      rfl
    unfold logp
    dsimp only
    rw [hlp, if_neg (by simp)]
    refine ⟨?_, fun l hl => by rw [hl], fun e he => by rw [he]⟩
    cases t.loglike.call [.vec x] <;> rfl
  · have hlp : logprior t x = .negInf := by
      unfold logprior
      rw [if_neg fun hc => h (hin.1 hc)]
    unfold logp
    dsimp only
    rw [hlp, if_pos rfl]

/-- **C40** without finite bounds: nothing is ever evaluated, not even inside. -/
theorem C40_infinite_counterexample (f : Fun (Ext ℝ) (Ext ℝ)) (x : ℝ) (hx : 0 ≤ x) :
    Tools.isInBounds [(.fin 0, .posInf)] [.fin x] = true ∧ logp ⟨[(.fin 0, .posInf)], f⟩ [.fin x] = ([], .ok .negInf) := by
  have hin : Tools.isInBounds [((.fin 0 : Ext ℝ), .posInf)] [.fin x] = true := by
    simp [Tools.isInBounds, Ext.ge, Ext.le, hx]
  refine ⟨hin, ?_⟩
  have : logprior ⟨[(.fin 0, .posInf)], f⟩ [.fin x] = .negInf := by
    unfold logprior
    rw [if_pos hin]
    rfl
  unfold logp
  dsimp only
  rw [this, if_pos rfl]

/-- C40: the unit square, a point on its boundary and one outside. -/
example : ∃ (t : Truth) (bounds : List (ℝ × ℝ)), (t.bounds = bounds.map fun b => (.fin b.1, .fin b.2)) ∧ (∀ b ∈ bounds, b.1 < b.2) ∧
    bounds.length = 2 ∧ (logp t [.fin 1, .fin (1 / 2)]).1 = [[.fin 1, .fin (1 / 2)]] ∧ logp t [.fin 1, .fin 2] = ([], .ok .negInf) := by
  let t : Truth := ⟨[(.fin 0, .fin 1), (.fin 0, .fin 1)], ⟨[⟨.posOrKw, false⟩], fun _ => .ok (.fin 3)⟩⟩
  have hlt : ∀ b ∈ [((0 : ℝ), (1 : ℝ)), (0, 1)], b.1 < b.2 := by simp
  refine ⟨t, [(0, 1), (0, 1)], rfl, hlt, rfl, ?_, ?_⟩
  · refine ((C40_bounds_partial t [(0, 1), (0, 1)] rfl hlt _ rfl).1 ⟨[1, 1 / 2], rfl, ?_⟩).1
    refine .cons (by norm_num) (.cons (by norm_num) .nil)
  · refine (C40_bounds_partial t [(0, 1), (0, 1)] rfl hlt _ rfl).2 ?_
    rintro ⟨v, hv, hf⟩
    cases hf with
    | cons h1 h2 => cases h2 with
      | cons h3 h4 =>
        simp at hv
        rw [← hv.2.1] at h3
        norm_num at h3

/-! ## Each theorem applied to concrete data -/

example : ∃ g, wrapLikelihood exDiff 2 = .ok g ∧ g.call [.vec [5, 3]] = .ok 2 := by
  obtain ⟨g, h, H⟩ := (C41_values_partial exDiff 2).1 rfl
  exact ⟨g, h, H [5, 3] rfl⟩

example : wrapLikelihood exDiff 3 = .error .valueError := (C41_refused exDiff 3).2 ⟨by decide, by decide, by decide⟩

example : ∃ g, wrapLikelihood exDiff 2 = .ok g ∧ wrapLikelihood g 2 = .ok g := by
  obtain ⟨g, h, -⟩ := (C41_values_partial exDiff 2).1 rfl
  exact ⟨g, h, C41_reload_partial _ _ _ le_rfl h⟩

example (t : Truth) (h : init ⟨[⟨.posOrKw, false⟩, ⟨.posOrKw, false⟩], fun _ => .ok (.fin 3)⟩ [(.fin 0, .fin 1), (.fin 0, .fin 1)] = .ok t) : reload t = .ok t :=
  C41_truth_partial _ _ (by simp) h

example : setNames 2 (namesDict (["a", "b"], ["\\alpha", "\\beta"])) = .ok (["a", "b"], ["\\alpha", "\\beta"]) :=
  (C84_names_partial 2 (.labelled [("a", "\\alpha"), ("b", "\\beta")]) (by unfold Params.distinct; decide) rfl).1

example : setRef [(0, 10), (0, 20)] (some [none, some [4, 5]]) = .ok ([none, some [4, 5]], [[0, 10], [4, 5]]) ∧
    setRef [(0, 10), (0, 20)] none = setRef [(0, 10), (0, 20)] (some [none, none]) :=
  ⟨(C84_ref_bounds [(0, 10), (0, 20)] (some [none, some [4, 5]]) rfl).1, ((C84_ref_bounds [(0, 10), (0, 20)] none rfl).1).symm⟩

end GPry.Truth
