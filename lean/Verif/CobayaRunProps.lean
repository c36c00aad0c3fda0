import Verif.CobayaRun
import Verif.CobayaProps
import Verif.PlotProgProps

set_option linter.all false

/-!
# Properties of running from Cobaya (C136)
-/

namespace GPry.CobayaRun

variable {E I P : Type}

/-- **C136** is false of the code: `run` of the wrapper never returns, whatever the runner does. Even if learning and sampling go well, it
ends in `LoggedError` about the sampling, since `last_mc_surr_info` and `last_mc_sampler` are no attributes of a `Runner`; the samples stay in the
runner, but not in the wrapper, so that `products` raises too. -/
theorem C136_run_counterexample (w : World E I P) (s : St I P) :
    (∀ r, (run real w s).2 ≠ .ok r) ∧ (w.run = none → ∀ x, w.sample = .ok x →
      (run real w s).2 = .error .sampling ∧ (run real w s).1.samples = x.samples ∧ (run real w s).1.sampler = s.sampler ∧
      (s.sampler = none → ∀ {V : Type} (runner : V) (f : P → Cobaya.Dict String V),
        products (E := E) runner f (run real w s).1 = .error .attributeError)) := by
  have h : ∀ (V : Type) (v : V), (attr real "last_mc_surr_info" v : Except (RErr E) V) = .error .attributeError := by
    intro V v
    unfold attr
    rw [if_neg (by decide)]
  have hd : ∀ s : St I P, ∃ e, doSample real w s = ({ s with samples := match w.sample with | .ok x => x.samples | .error _ => s.samples }, some e) := by
    intro s
    unfold doSample
    cases hs : w.sample with
    | error e => exact ⟨_, rfl⟩
    | ok x => dsimp only; rw [h]; exact ⟨_, rfl⟩
  constructor
  · intro r
    unfold run
    cases w.run with
    | some e => simp
    | none =>
      dsimp only
      obtain ⟨e, he⟩ := hd (if w.isMain = true then { s with log := s.log ++ [if w.hasConverged then "learning finished" else "learning not converged"] } else s)
      rw [he]
      simp
  · intro hr x hx
    unfold run
    rw [hr]
    dsimp only
    obtain ⟨e, he⟩ := hd (if w.isMain = true then { s with log := s.log ++ [if w.hasConverged then "learning finished" else "learning not converged"] } else s)
    rw [he, hx]
    refine ⟨rfl, rfl, ?_, ?_⟩
    · dsimp only; split_ifs <;> rfl
    · intro hn V runner f
      unfold products
      have : (if w.isMain = true then { s with log := s.log ++ [if w.hasConverged then "learning finished" else "learning not converged"] } else s).sampler = none := by
        split_ifs <;> exact hn
      rw [this]

/-- **C136**, false of the code: `do_plots` always raises, before drawing anything, since it passes `format` (the builtin function), which is no
parameter of `plot_distance_distribution`. -/
theorem C136_plots_counterexample (w : World E I P) (s : St I P) : doPlots real w s = some .typeError := by
  unfold doPlots callKw
  rw [if_neg (by decide)]

/-- **C136**, partial (missing: the attributes and parameters of the code): were the two names attributes of the runner, and `format` a parameter,
`run` would return what the sampler gives exactly if learning and sampling work (and, at the main process with plots, the plots), and fail in
the stage that failed. -/
theorem C136_run_partial (t : Tables) (h1 : "last_mc_surr_info" ∈ t.attrs) (h2 : "last_mc_sampler" ∈ t.attrs) (h3 : "format" ∈ t.dist)
    (h4 : "ext" ∈ t.progress) (h5 : "ext" ∈ t.mc) (w : World E I P) (s : St I P) :
    (∀ i p, (run t w s).2 = .ok (i, p) ↔ w.run = none ∧ ∃ x, w.sample = .ok x ∧ i = some x.info ∧ p = some x.sampler ∧
      (w.isMain = true → w.plots = true → w.distPlot = none ∧ w.progressPlot = none ∧ (∀ n, x.samples = some n → n ≠ 0 → w.mcPlot = none))) ∧
    ((run t w s).2 = .error .learning ↔ w.run ≠ none) ∧
    ((run t w s).2 = .error .sampling ↔ w.run = none ∧ ∃ e, w.sample = .error e) := by
  unfold run doSample attr doPlots callKw isSampled
  simp only [h1, h2, h3, h4, h5, if_true]
  rcases hr : w.run with _ | e
  swap
  · simp
  rcases hs : w.sample with e' | ⟨x1, x2, x3⟩
  · simp
  cases hm : w.isMain
  · (refine ⟨fun i p => ?_, by simp, by simp⟩; simp; try (constructor <;> rintro ⟨rfl, rfl⟩ <;> exact ⟨rfl, rfl⟩))
  cases hp : w.plots
  · (refine ⟨fun i p => ?_, by simp, by simp⟩; simp; try (constructor <;> rintro ⟨rfl, rfl⟩ <;> exact ⟨rfl, rfl⟩))
  rcases hd : w.distPlot with _ | d
  swap
  · simp
  rcases hg : w.progressPlot with _ | d'
  swap
  · simp
  rcases x3 with _ | _ | n
  · (refine ⟨fun i p => ?_, by simp, by simp⟩; simp; try (constructor <;> rintro ⟨rfl, rfl⟩ <;> exact ⟨rfl, rfl⟩))
  · (refine ⟨fun i p => ?_, by simp, by simp⟩; simp; try (constructor <;> rintro ⟨rfl, rfl⟩ <;> exact ⟨rfl, rfl⟩))
  · rcases hq : w.mcPlot with _ | d'' <;> (refine ⟨fun i p => ?_, by simp, by simp⟩; simp; try (constructor <;> rintro ⟨rfl, rfl⟩ <;> exact ⟨rfl, rfl⟩))

/-- **C136**, false of the documentation (CobayaWrapper.yaml): with the option `format` for the plots, as documented, no figure is ever made: each
iteration logs a `TypeError`. -/
theorem C136_format_counterexample {S M B : Type} (agg : B) (kws : List String) (h : "format" ∈ kws) (sw : PlotProg.Switches)
    (ws : List (PlotProg.World S M)) (hm : ∀ w ∈ ws, w.isMain = true) (s : PlotProg.St B × List Fig.Err) :
    ws.foldl (fun s w => loopPlots progressParams agg kws sw w s) s = (s.1, s.2 ++ List.replicate ws.length .typeError) := by
  have hk : ¬ (kws.all fun k => decide (k ∈ progressParams)) = true := by
    intro hh
    rw [List.all_eq_true] at hh
    have := hh _ h
    revert this
    decide
  induction ws generalizing s with
  | nil => simp
  | cons w ws ih =>
    rw [List.foldl_cons, ih (fun w hw => hm w (List.mem_cons_of_mem _ hw))]
    unfold loopPlots
    rw [if_pos (hm w List.mem_cons_self), if_neg hk]
    simp [List.replicate_succ]

/-- **C136**: the products: those of the sampler, and the runner under `runner` unless the sampler has a product of that name. -/
theorem C136_products {V : Type} (runner : V) (f : P → Cobaya.Dict String V) (s : St I P) (p : P) (hs : s.sampler = some p) (k : String)
    (hnd : ((f p).map Prod.fst).Nodup) : ∃ d, products (E := E) runner f s = .ok d ∧
    Cobaya.get d k = match Cobaya.get (f p) k with
      | some v => some v
      | none => if k = "runner" then some runner else none := by
  refine ⟨_, by unfold products; rw [hs], ?_⟩
  rw [Cobaya.get_update _ _ _ hnd]
  cases hg : Cobaya.get (f p) k with
  | some v => rfl
  | none =>
    by_cases hk : k = "runner"
    · subst hk; rfl
    · rw [if_neg hk]
      simp [Cobaya.get, Ne.symm hk]

def exW : World Unit ℕ ℕ := ⟨true, true, none, true, .ok ⟨5, 6, some 4⟩, none, none, none⟩
def exT : Tables := ⟨"last_mc_surr_info" :: "last_mc_sampler" :: runnerAttrs, "format" :: distParams, progressParams, mcParams⟩

example : (run exT exW ⟨none, none, none, []⟩).2 = .ok (some 5, some 6) := by decide +kernel
example : (run real exW ⟨none, none, none, []⟩).2 = .error .sampling := by decide +kernel

example : (run exT exW ⟨none, none, none, []⟩).2 = .ok (some 5, some 6) :=
  ((C136_run_partial exT (by decide) (by decide) (by decide) (by decide) (by decide) exW ⟨none, none, none, []⟩).1 _ _).mpr
    ⟨rfl, ⟨5, 6, some 4⟩, rfl, rfl, rfl, fun _ _ => ⟨rfl, rfl, fun _ _ _ => rfl⟩⟩

example : ∃ d, products (E := Unit) (I := ℕ) (P := ℕ) 9 (fun p => [("sample", p), ("x", 1)]) ⟨none, some 6, none, []⟩ = .ok d ∧
    Cobaya.get d "runner" = some 9 ∧ Cobaya.get d "sample" = some 6 := by
  have h := fun k => C136_products (E := Unit) (I := ℕ) (P := ℕ) 9 (fun p => [("sample", p), ("x", 1)]) ⟨none, some 6, none, []⟩ 6 rfl k (by decide)
  obtain ⟨d, hd, h1⟩ := h "runner"
  obtain ⟨d', hd', h2⟩ := h "sample"
  rw [hd] at hd'
  cases hd'
  exact ⟨d, hd, h1.trans (by decide), h2.trans (by decide)⟩

end GPry.CobayaRun
