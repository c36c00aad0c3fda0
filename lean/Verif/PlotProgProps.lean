import Verif.PlotProg
import Verif.CobayaProps

set_option linter.all false

/-!
# Properties of the plots of the progress of a run (C135)
-/

namespace GPry.PlotProg

open GPry.Cobaya (Str Dict str put)
open GPry.Fig (Err)

variable {S M B : Type}

/-! ## Names of files -/

theorem pad3_val (n : ℕ) : Nat.ofDigitChars 10 (pad3 n) 0 = n := by
  unfold pad3
  rw [Nat.ofDigitChars_append, Nat.ofDigitChars_replicate_zero, Nat.mul_zero, Nat.ofDigitChars_ten_toDigits]

theorem pad3_inj {m n : ℕ} (h : pad3 m = pad3 n) : m = n := by
  rw [← pad3_val m, ← pad3_val n, h]

/-- At least three digits. -/
theorem pad3_length (n : ℕ) : 3 ≤ (pad3 n).length := by
  unfold pad3; simp; omega

theorem join_inj {a b c : Str} (h : RunnerOut.join a b = RunnerOut.join a c) : b = c := by
  unfold RunnerOut.join at h
  split at h
  · exact h
  · split_ifs at h
    · exact List.append_cancel_left h
    · simpa using List.append_cancel_left h

theorem fileOf_inj {p e a b : Str} (h : fileOf p e a = fileOf p e b) : a = b := by
  have := join_inj h
  exact List.append_cancel_right this

/-- **C135**: corner plots of different iterations are different files, and none is one of the other files. -/
theorem C135_names (p e : Str) (m n : ℕ) : (cornerFile p e m = cornerFile p e n ↔ m = n) ∧
    ∀ nm ∈ [str "timing", str "convergence", str "trace", str "slices", str "Surrogate_triangle"],
      fileOf p e nm ≠ cornerFile p e m := by
  refine ⟨⟨fun h => ?_, fun h => h ▸ rfl⟩, ?_⟩
  · exact pad3_inj (List.append_cancel_left (fileOf_inj h))
  · intro nm hn h
    have h := fileOf_inj h
    have hl := congrArg (·.take 3) h
    have : (str "corner_it_" ++ pad3 m).take 3 = "cor".toList := rfl
    rw [this] at hl
    simp only [List.mem_cons, List.not_mem_nil, or_false] at hn
    rcases hn with rfl | rfl | rfl | rfl | rfl <;> revert hl <;> decide

/-! ## What is written -/

/-- The calls of `plot_progress`, before the corner plot, that the switches ask for, in order: `none` if they return. -/
def firstCalls (w : World S M) (sw : Switches) (fid : Option S) : List (Str × Call) :=
  (if sw.timing then [(str "timing", w.timing)] else []) ++ (if sw.convergence then [(str "convergence", w.convergence)] else []) ++
  (if sw.trace then [(str "trace", w.trace fid)] else []) ++ (if sw.slices then [(str "slices", w.slices)] else [])

/-- The fiducial sample as used: `none` if it was not set. -/
def fidOk (w : World S M) : Option S := match w.fid with
  | some (.ok s) => some s
  | _ => none

/-- One figure after another. -/
def runDraws : List (Str × Call) → St B → St B × Call
  | [] => fun s => (s, none)
  | c :: cs => andThen (draw c.2 c.1) (runDraws cs)

theorem runDraws_append (a b : List (Str × Call)) (s : St B) : runDraws (a ++ b) s = andThen (runDraws a) (runDraws b) s := by
  induction a generalizing s with
  | nil => rfl
  | cons c a ih =>
    show andThen (draw c.2 c.1) (runDraws (a ++ b)) s = _
    obtain ⟨f, c⟩ := c
    cases c with
    | none =>
      show runDraws (a ++ b) _ = andThen (runDraws ((f, none) :: a)) (runDraws b) s
      rw [ih]; rfl
    | some e => rfl

theorem when_draw (b : Bool) (c : Call) (f : Str) : (when b (draw c f) : St B → St B × Call) = runDraws (if b then [(f, c)] else []) := by
  funext s
  cases b
  · rfl
  · show draw c f s = andThen (draw c f) (runDraws []) s
    cases c <;> rfl

theorem runDraws_ok {cs : List (Str × Call)} (h : ∀ c ∈ cs, c.2 = none) (s : St B) : ∃ o,
    runDraws cs s = ({ s with files := s.files ++ cs.map Prod.fst, openFigs := o }, none) := by
  induction cs generalizing s with
  | nil => exact ⟨s.openFigs, by simp [runDraws]⟩
  | cons c cs ih =>
    obtain ⟨f, c⟩ := c
    obtain rfl : c = none := h _ List.mem_cons_self
    obtain ⟨o, ho⟩ := ih (fun c hc => h c (List.mem_cons_of_mem _ hc)) { s with files := s.files ++ [f], openFigs := true }
    refine ⟨o, ?_⟩
    show runDraws cs _ = _
    rw [ho]
    simp

theorem runDraws_fail {cs : List (Str × Call)} (h : ¬ ∀ c ∈ cs, c.2 = none) (s : St B) : ∃ pre f e post,
    cs = pre ++ (f, some e) :: post ∧ (∀ c ∈ pre, c.2 = none) ∧
    runDraws cs s = ({ s with files := s.files ++ pre.map Prod.fst, openFigs := true }, some e) := by
  induction cs generalizing s with
  | nil => simp at h
  | cons c cs ih =>
    obtain ⟨f, c⟩ := c
    cases c with
    | some e => exact ⟨[], f, e, cs, rfl, by simp, by simp [runDraws, andThen, draw]⟩
    | none =>
      obtain ⟨pre, f', e, post, h1, h2, h3⟩ := ih (by
        intro hh
        apply h
        intro c hc
        rcases List.mem_cons.1 hc with rfl | hc
        · rfl
        · exact hh c hc) { s with files := s.files ++ [f], openFigs := true }
      refine ⟨(f, none) :: pre, f', e, post, by rw [h1]; rfl, ?_, ?_⟩
      · intro c hc
        rcases List.mem_cons.1 hc with rfl | hc
        · rfl
        · exact h2 c hc
      · show runDraws cs _ = _
        rw [h3]
        simp

/-- The calls before and after the conversion of the fiducial sample. -/
def callsA (w : World S M) (sw : Switches) : List (Str × Call) :=
  (if sw.timing then [(fileOf w.path w.ext (str "timing"), w.timing)] else []) ++
  (if sw.convergence then [(fileOf w.path w.ext (str "convergence"), w.convergence)] else [])

def callsB (w : World S M) (sw : Switches) (fid : Option S) : List (Str × Call) :=
  (if sw.trace then [(fileOf w.path w.ext (str "trace"), w.trace fid)] else []) ++
  (if sw.slices then [(fileOf w.path w.ext (str "slices"), w.slices)] else [])

theorem andThen_assoc (p q r : St B → St B × Call) (s : St B) : andThen p (andThen q r) s = andThen (andThen p q) r s := by
  unfold andThen
  rcases p s with ⟨s', _ | e⟩
  · rfl
  · rfl

theorem plotProgress_eq {agg : B} {w : World S M} {sw : Switches} {s : St B} (hm : w.isMain = true) :
    plotProgress agg w sw s = andThen (runDraws (callsA w sw)) (fun s => match fidMC w sw with
      | .error e => (s, some e)
      | .ok fid => andThen (runDraws (callsB w sw fid)) (andThen (when sw.corner (cornerStep agg w fid)) closeAll) s) s := by
  unfold plotProgress
  rw [if_pos hm, andThen_assoc, when_draw, when_draw]
  have h1 : (andThen (runDraws (if sw.timing = true then [(fileOf w.path w.ext (str "timing"), w.timing)] else []))
      (runDraws (if sw.convergence = true then [(fileOf w.path w.ext (str "convergence"), w.convergence)] else [])) : St B → _) =
      runDraws (callsA w sw) := by
    funext s; rw [← runDraws_append]; rfl
  rw [h1]
  congr 1
  funext s
  rcases fidMC w sw with e | fid
  · rfl
  · dsimp only
    rw [andThen_assoc, when_draw, when_draw]
    have h2 : (andThen (runDraws (if sw.trace = true then [(fileOf w.path w.ext (str "trace"), w.trace fid)] else []))
        (runDraws (if sw.slices = true then [(fileOf w.path w.ext (str "slices"), w.slices)] else [])) : St B → _) =
        runDraws (callsB w sw fid) := by
      funext s; rw [← runDraws_append]; rfl
    rw [h2]

theorem calls_eq (w : World S M) (sw : Switches) (fid : Option S) :
    callsA w sw ++ callsB w sw fid = (firstCalls w sw fid).map fun c => (fileOf w.path w.ext c.1, c.2) := by
  unfold callsA callsB firstCalls
  simp only [List.map_append, List.append_assoc]
  cases sw.timing <;> cases sw.convergence <;> cases sw.trace <;> cases sw.slices <;> rfl

/-- The fiducial sample is converted when it is needed: `trace or corner and …` is harmless. -/
theorem fidMC_ok {w : World S M} {sw : Switches} {f : Option S} (hf : fidMC w sw = .ok f)
    (hor : sw.trace = true ∨ sw.corner = true) : f = fidOk w := by
  unfold fidMC at hf
  unfold fidOk
  rcases hw : w.fid with _ | _ | x <;> rw [hw] at hf <;> rcases hor with ho | ho <;> simp [ho] at hf <;>
    first | exact hf.symm | (split_ifs at hf <;> simp_all)

theorem callsB_fid {w : World S M} {sw : Switches} {f : Option S} (hf : fidMC w sw = .ok f) :
    callsB w sw f = callsB w sw (fidOk w) := by
  by_cases ht : sw.trace = true
  · rw [fidMC_ok hf (.inl ht)]
  · unfold callsB; rw [if_neg ht, if_neg ht]

/-- Everything about the corner plot that is not the samples. -/
theorem cornerStep_ok {agg : B} {w : World S M} {fid : Option S} {d : Dict Str S} {ws : List Warn}
    (h : cornerSamples w fid = .ok (d, ws)) (s : St B) : ∃ s', cornerStep agg w fid s = (s', none) ∧ s'.backend = s.backend ∧
    s'.files = s.files ++ (if d ≠ [] ∧ w.corner d (markers w) = none then [cornerFile w.path w.ext w.it] else []) ++
      (if w.hasConverged = true ∧ (d ≠ [] → w.corner d (markers w) = none) ∧ w.mc = none then
        [fileOf w.path w.ext (str "Surrogate_triangle")] else []) := by
  unfold cornerStep
  rw [h]
  refine ⟨_, rfl, ?_, ?_⟩
  · rfl
  · dsimp only
    unfold cornerBody andThen when draw
    rcases d with _ | ⟨q, d⟩
    · cases hc : w.hasConverged <;> cases hm : w.mc <;> simp
    · cases hcr : w.corner (q :: d) (markers w) <;> cases hc : w.hasConverged <;> cases hm : w.mc <;> simp

/-- **C135**: a call that returns has written the figures asked for, in this order, and nothing else.  The corner plot is
written if there is a sample and the plot can be made; after convergence, and if the corner plot did not fail, a plot of the
last sample of the surrogate is added. -/
theorem C135_files {agg : B} {w : World S M} {sw : Switches} {s : St B} (hm : w.isMain = true)
    (h : (plotProgress agg w sw s).2 = none) : ∃ d ws, (sw.corner = true → cornerSamples w (fidOk w) = .ok (d, ws)) ∧
    (plotProgress agg w sw s).1.files = s.files ++ (firstCalls w sw (fidOk w)).map (fun c => fileOf w.path w.ext c.1) ++
      (if sw.corner = true ∧ d ≠ [] ∧ w.corner d (markers w) = none then [cornerFile w.path w.ext w.it] else []) ++
      (if sw.corner = true ∧ w.hasConverged = true ∧ (d ≠ [] → w.corner d (markers w) = none) ∧ w.mc = none then
        [fileOf w.path w.ext (str "Surrogate_triangle")] else []) ∧
    (plotProgress agg w sw s).1.openFigs = false ∧ ∀ c ∈ firstCalls w sw (fidOk w), c.2 = none := by
  rw [plotProgress_eq hm] at h ⊢
  by_cases hA : ∀ c ∈ callsA w sw, c.2 = none
  swap
  · obtain ⟨pre, f, e, post, h1, h2, h3⟩ := runDraws_fail hA s
    unfold andThen at h; rw [h3] at h; simp at h
  obtain ⟨o, hA'⟩ := runDraws_ok hA s
  rw [show ∀ q, andThen (runDraws (callsA w sw)) q s = q { s with files := s.files ++ (callsA w sw).map Prod.fst, openFigs := o } from
    fun q => by unfold andThen; rw [hA']] at h ⊢
  rcases hf : fidMC w sw with e | fid
  · rw [hf] at h; simp at h
  rw [hf] at h
  dsimp only at h ⊢
  by_cases hB : ∀ c ∈ callsB w sw fid, c.2 = none
  swap
  · obtain ⟨pre, f, e, post, h1, h2, h3⟩ := runDraws_fail hB { s with files := s.files ++ (callsA w sw).map Prod.fst, openFigs := o }
    unfold andThen at h; rw [h3] at h; simp at h
  obtain ⟨o', hB'⟩ := runDraws_ok hB { s with files := s.files ++ (callsA w sw).map Prod.fst, openFigs := o }
  rw [show ∀ q, andThen (runDraws (callsB w sw fid)) q { s with files := s.files ++ (callsA w sw).map Prod.fst, openFigs := o } =
    q _ from fun q => by unfold andThen; rw [hB']] at h ⊢
  have hcalls := calls_eq w sw (fidOk w)
  rw [← callsB_fid hf] at hcalls
  have hlast : ∀ c ∈ firstCalls w sw (fidOk w), c.2 = none := by
    intro c hc
    have : (fileOf w.path w.ext c.1, c.2) ∈ callsA w sw ++ callsB w sw fid := by
      rw [hcalls]; exact List.mem_map_of_mem hc
    rcases List.mem_append.1 this with hh | hh
    · have := hA _ hh; exact this
    · have := hB _ hh; exact this
  have hfiles : (firstCalls w sw (fidOk w)).map (fun c => fileOf w.path w.ext c.1) =
      (callsA w sw).map Prod.fst ++ (callsB w sw fid).map Prod.fst := by
    rw [← List.map_append, hcalls, List.map_map]; rfl
  by_cases hc : sw.corner = true
  · have hfe := fidMC_ok hf (.inr hc)
    rcases hcs : cornerSamples w fid with e | ⟨d, ws⟩
    · simp only [andThen, when, hc, if_true, cornerStep, hcs] at h
      simp at h
    · obtain ⟨s', h1, h2, h3⟩ := cornerStep_ok (agg := agg) hcs
        { s with files := s.files ++ (callsA w sw).map Prod.fst ++ (callsB w sw fid).map Prod.fst, openFigs := o' }
      refine ⟨d, ws, fun _ => by rw [← hfe]; exact hcs, ?_⟩
      have hcl : andThen (when sw.corner (cornerStep agg w fid)) closeAll
          { s with files := s.files ++ (callsA w sw).map Prod.fst ++ (callsB w sw fid).map Prod.fst, openFigs := o' } =
          ({ s' with openFigs := false }, none) := by
        simp only [andThen, when, hc, if_true, h1, closeAll]
      dsimp only at h1 ⊢
      rw [hcl]
      refine ⟨?_, rfl, hlast⟩
      dsimp only
      rw [h3, hfiles]
      simp only [hc, true_and, List.append_assoc]
  · refine ⟨[], [], fun hh => absurd hh hc, ?_⟩
    have hc' : sw.corner = false := by simpa using hc
    simp only [andThen, when, hc', closeAll]
    refine ⟨?_, rfl, hlast⟩
    rw [hfiles]
    simp

/-- **C135**: an exception in one of the first figures is raised, and the figures before it, and only they, have been
written: the ones after it are lost.  Other than these, only the conversion of a sample raises; a corner plot that fails is
a warning. -/
theorem C135_raises {agg : B} {w : World S M} {sw : Switches} {s : St B} {e : Err} (hm : w.isMain = true)
    (h : (plotProgress agg w sw s).2 = some e) :
    (∃ pre f post, firstCalls w sw (fidOk w) = pre ++ (f, some e) :: post ∧ (∀ c ∈ pre, c.2 = none) ∧
      (plotProgress agg w sw s).1.files = s.files ++ pre.map fun c => fileOf w.path w.ext c.1) ∨
    (w.fid = some (.error e) ∧ (sw.trace = true ∨ sw.corner = true) ∧ (∀ c ∈ callsA w sw, c.2 = none) ∧
      (plotProgress agg w sw s).1.files = s.files ++ (callsA w sw).map Prod.fst) ∨
    (sw.corner = true ∧ w.acq = some (.error e) ∧ e ≠ .valueError ∧ (∀ c ∈ firstCalls w sw (fidOk w), c.2 = none) ∧
      (plotProgress agg w sw s).1.files = s.files ++ (firstCalls w sw (fidOk w)).map fun c => fileOf w.path w.ext c.1) := by
  rw [plotProgress_eq hm] at h ⊢
  have back : ∀ (pre post : List (Str × Call)) (f : Str) (c : Call), callsA w sw ++ callsB w sw (fidOk w) = pre ++ (f, c) :: post →
      ∃ pre' f' post', firstCalls w sw (fidOk w) = pre' ++ (f', c) :: post' ∧
        pre = pre'.map fun c => (fileOf w.path w.ext c.1, c.2) := by
    intro pre post f c hh
    rw [calls_eq] at hh
    obtain ⟨l1, l2, h1, h2, h3⟩ := List.map_eq_append_iff.1 hh
    obtain ⟨a, l3, h4, h5, h6⟩ := List.map_eq_cons_iff.1 h3
    obtain ⟨f', c'⟩ := a
    simp only [Prod.mk.injEq] at h5
    obtain ⟨-, rfl⟩ := h5
    exact ⟨l1, f', l3, by rw [h1, h4], h2.symm⟩
  by_cases hA : ∀ c ∈ callsA w sw, c.2 = none
  swap
  · left
    obtain ⟨pre, f, e', post, h1, h2, h3⟩ := runDraws_fail hA s
    have hres : ∀ q, andThen (runDraws (callsA w sw)) q s = ({ s with files := s.files ++ pre.map Prod.fst, openFigs := true }, some e') :=
      fun q => by unfold andThen; rw [h3]
    rw [hres] at h ⊢
    obtain rfl : e' = e := by simpa using h
    obtain ⟨pre', f', post', h4, h5⟩ := back pre (post ++ callsB w sw (fidOk w)) f (some e') (by rw [h1]; simp)
    refine ⟨pre', f', post', h4, ?_, ?_⟩
    · intro c hc
      exact h2 (fileOf w.path w.ext c.1, c.2) (by rw [h5]; exact List.mem_map_of_mem hc)
    · dsimp only; rw [h5, List.map_map]; rfl
  obtain ⟨o, hA'⟩ := runDraws_ok hA s
  rw [show ∀ q, andThen (runDraws (callsA w sw)) q s = q { s with files := s.files ++ (callsA w sw).map Prod.fst, openFigs := o } from
    fun q => by unfold andThen; rw [hA']] at h ⊢
  rcases hf : fidMC w sw with e' | fid
  · rw [hf] at h
    right; left
    obtain rfl : e' = e := by simpa using h
    unfold fidMC at hf
    refine ⟨?_, ?_, hA, rfl⟩
    · split_ifs at hf
      rcases hw : w.fid with _ | _ | x <;> rw [hw] at hf <;> simp_all
    · split_ifs at hf with hcond
      simp only [Bool.or_eq_true, Bool.and_eq_true] at hcond
      rcases hcond with hh | hh
      · exact .inl hh
      · exact .inr hh.1
  rw [hf] at h
  dsimp only at h ⊢
  by_cases hB : ∀ c ∈ callsB w sw fid, c.2 = none
  swap
  · left
    obtain ⟨pre, f, e', post, h1, h2, h3⟩ := runDraws_fail hB { s with files := s.files ++ (callsA w sw).map Prod.fst, openFigs := o }
    have hres : ∀ q, andThen (runDraws (callsB w sw fid)) q { s with files := s.files ++ (callsA w sw).map Prod.fst, openFigs := o } =
        ({ s with files := s.files ++ (callsA w sw).map Prod.fst ++ pre.map Prod.fst, openFigs := true }, some e') :=
      fun q => by unfold andThen; rw [h3]
    rw [hres] at h ⊢
    obtain rfl : e' = e := by simpa using h
    obtain ⟨pre', f', post', h4, h5⟩ := back (callsA w sw ++ pre) post f (some e') (by rw [← callsB_fid hf, h1]; simp)
    refine ⟨pre', f', post', h4, ?_, ?_⟩
    · intro c hc
      have : (fileOf w.path w.ext c.1, c.2) ∈ callsA w sw ++ pre := by rw [h5]; exact List.mem_map_of_mem hc
      rcases List.mem_append.1 this with hh | hh
      · have := hA _ hh; exact this
      · have := h2 _ hh; exact this
    · dsimp only; rw [List.append_assoc, ← List.map_append, h5, List.map_map]; rfl
  obtain ⟨o', hB'⟩ := runDraws_ok hB { s with files := s.files ++ (callsA w sw).map Prod.fst, openFigs := o }
  rw [show ∀ q, andThen (runDraws (callsB w sw fid)) q { s with files := s.files ++ (callsA w sw).map Prod.fst, openFigs := o } =
    q _ from fun q => by unfold andThen; rw [hB']] at h ⊢
  have hcalls := calls_eq w sw (fidOk w)
  rw [← callsB_fid hf] at hcalls
  have hlast : ∀ c ∈ firstCalls w sw (fidOk w), c.2 = none := by
    intro c hc
    have : (fileOf w.path w.ext c.1, c.2) ∈ callsA w sw ++ callsB w sw fid := by
      rw [hcalls]; exact List.mem_map_of_mem hc
    rcases List.mem_append.1 this with hh | hh
    · have := hA _ hh; exact this
    · have := hB _ hh; exact this
  have hfiles : (firstCalls w sw (fidOk w)).map (fun c => fileOf w.path w.ext c.1) =
      (callsA w sw).map Prod.fst ++ (callsB w sw fid).map Prod.fst := by
    rw [← List.map_append, hcalls, List.map_map]; rfl
  right; right
  by_cases hc : sw.corner = true
  · rcases hcs : cornerSamples w fid with e' | ⟨d, ws⟩
    · simp only [andThen, when, hc, if_true, cornerStep, hcs] at h ⊢
      obtain rfl : e' = e := by simpa using h
      unfold cornerSamples at hcs
      refine ⟨trivial, ?_, ?_, hlast, ?_⟩
      · rcases hw : w.acq with _ | e1 | x <;> rw [hw] at hcs <;> simp at hcs
        cases e1 <;> simp_all
      · rintro rfl
        rcases hw : w.acq with _ | e1 | x <;> rw [hw] at hcs <;> simp at hcs
        cases e1 <;> simp_all
      · rw [hfiles, List.append_assoc]
    · obtain ⟨s', h1, h2, h3⟩ := cornerStep_ok (agg := agg) hcs
        { s with files := s.files ++ (callsA w sw).map Prod.fst ++ (callsB w sw fid).map Prod.fst, openFigs := o' }
      simp only [andThen, when, hc, if_true, h1, closeAll] at h
      simp at h
  · have hc' : sw.corner = false := by simpa using hc
    simp [andThen, when, hc', closeAll] at h

/-! ## Backend, samples -/

/-- **C135**: whatever happens, the backend of matplotlib is the one there was, and nothing is done in other processes. -/
theorem C135_backend (agg : B) (w : World S M) (sw : Switches) (s : St B) :
    (plotProgress agg w sw s).1.backend = s.backend ∧ (w.isMain = false → plotProgress agg w sw s = (s, none)) := by
  have hd : ∀ c f (s : St B), (draw c f s).1.backend = s.backend := by intro c f s; cases c <;> rfl
  have hw : ∀ b (p : St B → St B × Call), (∀ s, (p s).1.backend = s.backend) → ∀ s, (when b p s).1.backend = s.backend := by
    intro b p hp s; cases b
    · rfl
    · exact hp s
  have ha : ∀ (p q : St B → St B × Call), (∀ s, (p s).1.backend = s.backend) → (∀ s, (q s).1.backend = s.backend) →
      ∀ s, (andThen p q s).1.backend = s.backend := by
    intro p q hp hq s
    have := hp s
    unfold andThen
    rcases hps : p s with ⟨s', _ | e⟩ <;> rw [hps] at this <;> dsimp only at this ⊢
    · rw [hq, this]
    · exact this
  have hcs : ∀ fid (s : St B), (cornerStep agg w fid s).1.backend = s.backend := by
    intro fid s
    unfold cornerStep
    rcases cornerSamples w fid with e | ⟨d, ws⟩ <;> rfl
  constructor
  · unfold plotProgress
    split_ifs
    · refine ha _ _ (hw _ _ (hd _ _)) (ha _ _ (hw _ _ (hd _ _)) ?_) s
      intro s
      rcases fidMC w sw with e | fid
      · rfl
      · exact ha _ _ (hw _ _ (hd _ _)) (ha _ _ (hw _ _ (hd _ _)) (ha _ _ (hw _ _ (hcs _)) (fun _ => rfl))) s
    · rfl
  · intro h
    unfold plotProgress
    rw [h]
    rfl

theorem acqKey_ne (w : World S M) : acqKey w ≠ str "Fiducial" := by
  intro h
  have hl := congrArg (·.take 1) h
  have : (acqKey w).take 1 = ['A'] := by
    unfold acqKey
    rfl
  rw [this] at hl
  revert hl
  decide

/-- **C135**: the samples in the corner plot: the fiducial one exactly if it was set (whether or not there is a plot of the
trace), the last one of the acquisition exactly if the acquisition keeps them and it can be converted, and no other. -/
theorem C135_samples {w : World S M} {sw : Switches} (hc : sw.corner = true) {fid : Option S} (hf : fidMC w sw = .ok fid)
    {d : Dict Str S} {ws : List Warn} (h : cornerSamples w fid = .ok (d, ws)) (k : Str) (x : S) :
    ((k, x) ∈ d ↔ (k = str "Fiducial" ∧ w.fid = some (.ok x)) ∨ (k = acqKey w ∧ w.acq = some (.ok x))) ∧
    (d.map Prod.fst).Nodup ∧ (Warn.acqSample ∈ ws ↔ w.acq = some (.error .valueError)) := by
  rw [fidMC_ok hf (.inr hc)] at h
  have hbad : ∀ e, w.fid ≠ some (.error e) := by
    intro e he
    unfold fidMC at hf
    rw [he] at hf
    simp [hc] at hf
  have hne := acqKey_ne w
  unfold cornerSamples fidOk at h
  rcases hw : w.fid with _ | e0 | y
  · rw [hw] at h
    rcases ha : w.acq with _ | e1 | z <;> rw [ha] at h <;> dsimp only at h
    · simp only [Except.ok.injEq, Prod.mk.injEq] at h; obtain ⟨rfl, rfl⟩ := h; simp
    · cases e1 <;> simp only [Except.ok.injEq, Prod.mk.injEq, reduceCtorEq] at h
      obtain ⟨rfl, rfl⟩ := h; simp
    · simp only [Except.ok.injEq, Prod.mk.injEq, put] at h
      obtain ⟨rfl, rfl⟩ := h
      simp [eq_comm]
  · exact absurd hw (hbad e0)
  · rw [hw] at h
    rcases ha : w.acq with _ | e1 | z <;> rw [ha] at h <;> dsimp only at h
    · simp only [Except.ok.injEq, Prod.mk.injEq] at h; obtain ⟨rfl, rfl⟩ := h; simp [eq_comm]
    · cases e1 <;> simp only [Except.ok.injEq, Prod.mk.injEq, reduceCtorEq] at h
      obtain ⟨rfl, rfl⟩ := h; simp [eq_comm]
    · simp only [put] at h
      rw [if_neg (by simpa using hne)] at h
      simp only [Except.ok.injEq, Prod.mk.injEq] at h
      obtain ⟨rfl, rfl⟩ := h
      refine ⟨?_, by simpa using hne.symm, by simp⟩
      simp [eq_comm]

/-! ## Along a run -/

/-- The calls of the loop, one per iteration (run.py:1011-1020). -/
def loopAll (agg : B) (plots : Option Switches) (ws : List (World S M)) (s : St B × List Err) : St B × List Err :=
  ws.foldl (fun s w => loopPlots agg plots w s) s

/-- What is written by one call: the corner plot at most once. -/
theorem files_append (agg : B) (w : World S M) (sw : Switches) (s : St B) : ∃ l, (plotProgress agg w sw s).1.files = s.files ++ l ∧
    (∀ f ∈ l, f = cornerFile w.path w.ext w.it ∨
      ∃ nm ∈ [str "timing", str "convergence", str "trace", str "slices", str "Surrogate_triangle"], f = fileOf w.path w.ext nm) ∧
    l.count (cornerFile w.path w.ext w.it) ≤ 1 := by
  by_cases hm : w.isMain = true
  swap
  · exact ⟨[], by rw [(C135_backend agg w sw s).2 (by simpa using hm)]; simp, by simp, by simp⟩
  have hfc : ∀ fid, ∀ c ∈ firstCalls w sw fid, c.1 ∈ [str "timing", str "convergence", str "trace", str "slices", str "Surrogate_triangle"] := by
    intro fid c hc
    unfold firstCalls at hc
    simp only [List.mem_append] at hc
    rcases hc with ((hc | hc) | hc) | hc <;> split_ifs at hc <;> simp only [List.mem_singleton, List.not_mem_nil] at hc <;>
      subst hc <;> simp
  have hA : ∀ c ∈ callsA w sw, ∃ nm ∈ [str "timing", str "convergence", str "trace", str "slices", str "Surrogate_triangle"],
      c.1 = fileOf w.path w.ext nm := by
    intro c hc
    unfold callsA at hc
    simp only [List.mem_append] at hc
    rcases hc with hc | hc <;> split_ifs at hc <;> simp only [List.mem_singleton, List.not_mem_nil] at hc <;> subst hc
    · exact ⟨_, by simp, rfl⟩
    · exact ⟨_, by simp, rfl⟩
  have h0 : ∀ l : List Str, (∀ f ∈ l, ∃ nm ∈ [str "timing", str "convergence", str "trace", str "slices", str "Surrogate_triangle"],
      f = fileOf w.path w.ext nm) → l.count (cornerFile w.path w.ext w.it) = 0 := by
    intro l hl
    rw [List.count_eq_zero]
    intro hmem
    obtain ⟨nm, hn, he⟩ := hl _ hmem
    exact (C135_names w.path w.ext w.it w.it).2 nm hn he.symm
  have hfirst : ∀ l : List (Str × Call), (∀ c ∈ l, c ∈ firstCalls w sw (fidOk w)) →
      ∀ f ∈ l.map (fun c => fileOf w.path w.ext c.1),
        ∃ nm ∈ [str "timing", str "convergence", str "trace", str "slices", str "Surrogate_triangle"], f = fileOf w.path w.ext nm := by
    intro l hl f hf
    obtain ⟨c, hc, rfl⟩ := List.mem_map.1 hf
    exact ⟨_, hfc _ c (hl c hc), rfl⟩
  rcases hr : (plotProgress agg w sw s).2 with _ | e
  · obtain ⟨d, ws, -, h2, -⟩ := C135_files hm hr
    rw [h2]
    have hf := hfirst _ (fun c hc => hc)
    refine ⟨_, by rw [List.append_assoc, List.append_assoc], ?_, ?_⟩
    · intro f hf'
      simp only [List.mem_append] at hf'
      rcases hf' with hf' | hf' | hf'
      · exact .inr (hf f hf')
      · split_ifs at hf' <;> simp at hf'; exact .inl hf'
      · split_ifs at hf' <;> simp at hf'; exact .inr ⟨_, by simp, hf'⟩
    · rw [List.count_append, List.count_append, h0 _ hf, Nat.zero_add]
      have hb : (if sw.corner = true ∧ w.hasConverged = true ∧ (d ≠ [] → w.corner d (markers w) = none) ∧ w.mc = none then
        [fileOf w.path w.ext (str "Surrogate_triangle")] else []).count (cornerFile w.path w.ext w.it) = 0 := by
        apply h0
        intro f hf'
        split_ifs at hf' <;> simp at hf'
        exact ⟨_, by simp, hf'⟩
      rw [hb]
      split_ifs <;> simp
  · rcases C135_raises hm hr with ⟨pre, f, post, h1, h2, h3⟩ | ⟨-, -, -, h3⟩ | ⟨-, -, -, -, h3⟩
    · have hp := hfirst pre (fun c hc => by rw [h1]; exact List.mem_append_left _ hc)
      exact ⟨_, h3, fun g hg => .inr (hp g hg), by rw [h0 _ hp]; omega⟩
    · have hp : ∀ f ∈ (callsA w sw).map Prod.fst,
          ∃ nm ∈ [str "timing", str "convergence", str "trace", str "slices", str "Surrogate_triangle"], f = fileOf w.path w.ext nm := by
        intro g hg
        obtain ⟨c, hc, rfl⟩ := List.mem_map.1 hg
        exact hA c hc
      exact ⟨_, h3, fun g hg => .inr (hp g hg), by rw [h0 _ hp]; omega⟩
    · have hp := hfirst _ (fun c hc => hc)
      exact ⟨_, h3, fun g hg => .inr (hp g hg), by rw [h0 _ hp]; omega⟩

/-- **C135**: along a run (iterations with different numbers, one folder and one format) no corner plot is overwritten: each is
written at most once. Exceptions do not stop the loop: they are logged, in order, and the files written so far stay. -/
theorem C135_run (agg : B) (plots : Option Switches) {p e : Str} (ws : List (World S M)) (hpe : ∀ w ∈ ws, w.path = p ∧ w.ext = e)
    (hit : (ws.map (·.it)).Nodup) (s : St B × List Err) (hs : ∀ w ∈ ws, cornerFile p e w.it ∉ s.1.files) :
    (∀ w ∈ ws, (loopAll agg plots ws s).1.files.count (cornerFile p e w.it) ≤ 1) ∧ s.1.files <+: (loopAll agg plots ws s).1.files ∧
    s.2 <+: (loopAll agg plots ws s).2 ∧ (loopAll agg plots ws s).1.backend = s.1.backend := by
  suffices h : (∀ n, s.1.files.count (cornerFile p e n) ≤ 1 → (n ∈ ws.map (·.it) → cornerFile p e n ∉ s.1.files) →
      (loopAll agg plots ws s).1.files.count (cornerFile p e n) ≤ 1) ∧
      s.1.files <+: (loopAll agg plots ws s).1.files ∧ s.2 <+: (loopAll agg plots ws s).2 ∧
      (loopAll agg plots ws s).1.backend = s.1.backend by
    refine ⟨fun w hw => h.1 w.it ?_ (fun _ => hs w hw), h.2⟩
    rw [List.count_eq_zero.2 (hs w hw)]; omega
  clear hs
  induction ws generalizing s with
  | nil => exact ⟨fun n h _ => h, List.prefix_refl _, List.prefix_refl _, rfl⟩
  | cons w ws ih =>
    have hstep : ∃ l, (loopPlots agg plots w s).1.files = s.1.files ++ l ∧
        (∀ f ∈ l, f = cornerFile p e w.it ∨
          ∃ nm ∈ [str "timing", str "convergence", str "trace", str "slices", str "Surrogate_triangle"], f = fileOf p e nm) ∧
        l.count (cornerFile p e w.it) ≤ 1 ∧ s.2 <+: (loopPlots agg plots w s).2 ∧
        (loopPlots agg plots w s).1.backend = s.1.backend := by
      have triv : ∃ l, s.1.files = s.1.files ++ l ∧
        (∀ f ∈ l, f = cornerFile p e w.it ∨
          ∃ nm ∈ [str "timing", str "convergence", str "trace", str "slices", str "Surrogate_triangle"], f = fileOf p e nm) ∧
        l.count (cornerFile p e w.it) ≤ 1 ∧ s.2 <+: s.2 ∧ s.1.backend = s.1.backend :=
        ⟨[], by simp, by simp, by simp, List.prefix_refl _, rfl⟩
      unfold loopPlots
      cases plots with
      | none => exact triv
      | some sw =>
        dsimp only
        split_ifs with hm
        · obtain ⟨l, h1, h2, h3⟩ := files_append agg w sw s.1
          have hb := (C135_backend agg w sw s.1).1
          rw [(hpe w List.mem_cons_self).1, (hpe w List.mem_cons_self).2] at h2 h3
          rcases hr : plotProgress agg w sw s.1 with ⟨s', _ | er⟩ <;> rw [hr] at h1 hb <;> dsimp only at h1 hb ⊢
          · exact ⟨l, h1, h2, h3, List.prefix_refl _, hb⟩
          · exact ⟨l, h1, h2, h3, List.prefix_append _ _, hb⟩
        · exact triv
    obtain ⟨l, h1, h2, h3, h4, h5⟩ := hstep
    rw [List.map_cons, List.nodup_cons] at hit
    obtain ⟨i1, i2, i3, i4⟩ := ih (fun w hw => hpe w (List.mem_cons_of_mem _ hw)) hit.2 (loopPlots agg plots w s)
    show (∀ n, _ → _ → (loopAll agg plots ws (loopPlots agg plots w s)).1.files.count (cornerFile p e n) ≤ 1) ∧
      s.1.files <+: (loopAll agg plots ws (loopPlots agg plots w s)).1.files ∧
      s.2 <+: (loopAll agg plots ws (loopPlots agg plots w s)).2 ∧
      (loopAll agg plots ws (loopPlots agg plots w s)).1.backend = s.1.backend
    have hother : ∀ n, n ≠ w.it → l.count (cornerFile p e n) = 0 := by
      intro n hn
      rw [List.count_eq_zero]
      intro hmem
      rcases h2 _ hmem with hh | ⟨nm, hnm, hh⟩
      · exact hn ((C135_names p e n w.it).1.1 hh)
      · exact (C135_names p e n n).2 nm hnm hh.symm
    refine ⟨fun n hc hn => i1 n ?_ ?_, ?_, h4.trans i3, i4.trans h5⟩
    · rw [h1, List.count_append]
      by_cases hnw : n = w.it
      · subst hnw
        rw [List.count_eq_zero.2 (hn (by simp))]; omega
      · rw [hother n hnw]; omega
    · intro hmem
      have hnw : n ≠ w.it := by rintro rfl; exact hit.1 hmem
      rw [h1, List.mem_append]
      rintro (hh | hh)
      · exact hn (by rw [List.map_cons]; exact List.mem_cons_of_mem _ hmem) hh
      · exact List.count_eq_zero.1 (hother n hnw) hh
    · rw [h1] at i2
      exact (List.prefix_append _ _).trans i2

/-- **C135**, what one would expect is false: the trace can be drawn without values of the convergence criterion (plots.py:850-861
ignores the exception), but `plot_progress` with its default arguments draws the convergence first, for which the same exception is
raised, and gets to no other figure. -/
theorem C135_no_values_counterexample (agg : B) (w : World S M) (s : St B) (hm : w.isMain = true) (ht : w.timing = none)
    {K : Type} (hc : w.convergence = match (Fig.convergencePoints "total" (none : Option (List K × List ℕ × List ℕ))) with
      | .ok _ => none
      | .error e => some e) (htr : ∀ f, w.trace f = none) (hs : s.files = []) (hf : ∀ e, w.fid ≠ some (.error e)) :
    (plotProgress agg w {} s).2 = some .valueError ∧ fileOf w.path w.ext (str "trace") ∉ (plotProgress agg w {} s).1.files ∧
    (plotProgress agg w {} s).1.openFigs = true ∧
    (plotProgress agg w { convergence := false } s).1.files = [fileOf w.path w.ext (str "timing"), fileOf w.path w.ext (str "trace")] := by
  have hc' : w.convergence = some .valueError := hc
  have hne : fileOf w.path w.ext (str "trace") ≠ fileOf w.path w.ext (str "timing") := fun h => by
    have := fileOf_inj h; revert this; decide
  have e1 : plotProgress agg w {} s = ({ s with files := [fileOf w.path w.ext (str "timing")], openFigs := true }, some .valueError) := by
    unfold plotProgress
    rw [if_pos hm]
    simp [andThen, when, draw, ht, hc', hs]
  refine ⟨by rw [e1], ?_, by rw [e1], ?_⟩
  · rw [e1]; simpa using hne
  · unfold plotProgress
    rw [if_pos hm]
    rcases hw : w.fid with _ | er | x
    · simp [andThen, when, draw, ht, htr, hs, fidMC, hw, closeAll]
    · exact absurd hw (hf er)
    · simp [andThen, when, draw, ht, htr, hs, fidMC, hw, closeAll]

/-- **C135**: the label of the acquisition sample tells the number of evaluations, and whether the sample was reweighted. -/
theorem C135_label (w w' : World S M) : acqKey w = acqKey w' ↔ w.nEvals = w'.nEvals ∧ w.reweighted = w'.reweighted := by
  constructor
  · intro h
    have dig : ∀ m n : ℕ, Nat.toDigits 10 m = Nat.toDigits 10 n → m = n := by
      intro m n h
      rw [← Nat.ofDigitChars_ten_toDigits (n := m), h, Nat.ofDigitChars_ten_toDigits]
    unfold acqKey at h
    rw [List.append_assoc, List.append_assoc] at h
    have h := List.append_cancel_left h
    cases hr : w.reweighted <;> cases hr' : w'.reweighted <;> rw [hr, hr'] at h
    · simp only [Bool.false_eq_true, if_false, List.nil_append, List.cons.injEq, true_and] at h
      exact ⟨dig _ _ (List.append_cancel_right h), rfl⟩
    · have := congrArg List.head? h
      revert this; simp [str]
    · have := congrArg List.head? h
      revert this; simp [str]
    · have h := List.append_cancel_left h
      simp only [List.cons.injEq, true_and] at h
      exact ⟨dig _ _ (List.append_cancel_right h), rfl⟩
  · rintro ⟨h1, h2⟩
    unfold acqKey
    rw [h1, h2]

/-- **C135**: there are markers exactly if there is a fiducial point; they show its coordinates (of each parameter, for a point with as
many), its log-posterior if known, and nothing else. -/
theorem C135_markers (w : World S M) : (markers w = none ↔ w.fidX = none) ∧
    ∀ x m, w.fidX = some x → markers w = some m → w.params.Nodup → x.length = w.params.length → Corner.nameLogp ∉ w.params →
      (∀ (i : ℕ) (h : i < w.params.length), Cobaya.get m w.params[i] = x[i]?) ∧ Cobaya.get m Corner.nameLogp = w.fidLogp ∧
      ∀ k, k ∉ w.params → k ≠ Corner.nameLogp → Cobaya.get m k = none := by
  constructor
  · unfold markers
    cases w.fidX with
    | none => simp
    | some x => cases w.fidLogp <;> simp
  · intro x m hx hm hnd hl hn
    have hz : ((w.params.zip x).map Prod.fst) = w.params := List.map_fst_zip (by omega)
    have hg : ∀ (i : ℕ) (h : i < w.params.length), Cobaya.get (w.params.zip x) w.params[i] = x[i]? := by
      intro i h
      rw [List.getElem?_eq_getElem (by omega)]
      have aux : ∀ (d : Dict Str M), (d.map Prod.fst).Nodup → ∀ q ∈ d, Cobaya.get d q.1 = some q.2 := by
        intro d
        induction d with
        | nil => intro _ q hq; cases hq
        | cons a d ih =>
          intro hnd q hq
          rw [Cobaya.get_cons]
          rcases List.mem_cons.1 hq with rfl | hq
          · rw [if_pos rfl]
          · rw [List.map_cons, List.nodup_cons] at hnd
            rw [if_neg (fun e : a.1 = q.1 => hnd.1 (e ▸ List.mem_map_of_mem hq)), ih hnd.2 q hq]
      have hmem : (w.params[i], x[i]'(by omega)) ∈ w.params.zip x :=
        List.mem_iff_getElem.2 ⟨i, by simp; omega, by simp⟩
      exact aux _ (by rw [hz]; exact hnd) _ hmem
    have hno : ∀ k, k ∉ w.params → Cobaya.get (w.params.zip x) k = none := fun k hk => (Cobaya.get_none _ _).2 (by rw [hz]; exact hk)
    unfold markers at hm
    rw [hx] at hm
    dsimp only at hm
    rcases hf : w.fidLogp with _ | v <;> rw [hf] at hm <;> dsimp only at hm <;> cases hm
    · exact ⟨hg, hno _ hn, fun k hk _ => hno k hk⟩
    · refine ⟨fun i h => ?_, ?_, fun k hk hk' => ?_⟩
      · rw [Cobaya.get_put, if_neg (fun e : Corner.nameLogp = w.params[i] => hn (e ▸ List.getElem_mem h)), hg]
      · rw [Cobaya.get_put, if_pos rfl]
      · rw [Cobaya.get_put, if_neg (fun e => hk' e.symm), hno k hk]

/-! ### Examples -/

def exW (it : ℕ) (acq : Option (Except Err ℕ)) (c : Call) : World ℕ ℚ :=
  ⟨true, str "run/images", str "png", none, none, fun _ => none, none, some (.ok 7), acq, false, 12, [str "a", str "b"], some [1, 2], some (-3),
    it, false, fun _ _ => c, none⟩

def exSt : St ℕ := ⟨[], [], 0, false⟩

/-- Everything asked for. -/
example : (plotProgress 1 (exW 3 (some (.ok 8)) none) ⟨true, true, true, true, true⟩ exSt).1.files =
    ["run/images/timing.png", "run/images/convergence.png", "run/images/trace.png", "run/images/slices.png",
      "run/images/corner_it_003.png"].map String.toList := by decide +kernel

example : cornerSamples (exW 3 (some (.ok 8)) none) (some 7) = .ok ([(str "Fiducial", 7), (str "Acq. sample (12 evals.)", 8)], []) := by
  decide +kernel

/-- The second corner plot fails: a warning; the last acquisition sample raises something else: logged. -/
def exRun : St ℕ × List Err :=
  loopAll 1 (some ⟨false, false, false, false, true⟩)
    [exW 1 (some (.ok 8)) none, exW 2 none (some .indexError), exW 1000 none none, exW 1001 (some (.error .typeError)) none] (exSt, [])

example : exRun.1.files = ["run/images/corner_it_001.png", "run/images/corner_it_1000.png"].map String.toList ∧
    exRun.1.warns = [.cornerFailed] ∧ exRun.2 = [.typeError] ∧ exRun.1.backend = 0 := by decide +kernel

def exFull : World ℕ ℚ := exW 3 (some (.ok 8)) none

def exSwitches : Switches := ⟨true, true, true, true, true⟩

example : cornerFile (str "p") (str "png") 12 ≠ cornerFile (str "p") (str "png") 1012 := fun h => absurd ((C135_names _ _ _ _).1.1 h) (by decide)

example : acqKey exFull ≠ acqKey { exFull with reweighted := true } ∧ acqKey exFull ≠ acqKey { exFull with nEvals := 13 } :=
  ⟨fun h => absurd ((C135_label _ _).1 h).2 (by decide), fun h => absurd ((C135_label _ _).1 h).1 (by decide)⟩

example : ∃ m, markers exFull = some m ∧ Cobaya.get m (str "b") = some 2 ∧ Cobaya.get m Corner.nameLogp = some (-3) := by
  obtain ⟨m, hm⟩ : ∃ m, markers exFull = some m := Option.ne_none_iff_exists'.1 fun h => absurd ((C135_markers exFull).1.1 h) (by decide +kernel)
  obtain ⟨h1, h2, -⟩ := (C135_markers exFull).2 [1, 2] m rfl hm (by decide +kernel) rfl (by decide +kernel)
  exact ⟨m, hm, h1 1 (by decide), h2⟩

example : (plotProgress 1 exFull exSwitches exSt).1.openFigs = false ∧ fileOf (str "run/images") (str "png") (str "slices") ∈ (plotProgress 1 exFull exSwitches exSt).1.files := by
  obtain ⟨d, ws, -, h, h', -⟩ := C135_files (agg := 1) (w := exFull) (sw := exSwitches) (s := exSt) rfl (by decide +kernel)
  refine ⟨h', ?_⟩
  rw [h]
  refine List.mem_append_left _ (List.mem_append_left _ (List.mem_append_right _ ?_))
  decide +kernel

/-- The convergence criterion cannot be drawn. -/
example : (plotProgress 1 { exFull with convergence := some .valueError } exSwitches exSt).1.files = [str "run/images/timing.png"] := by
  rcases C135_raises (agg := 1) (w := { exFull with convergence := some .valueError }) (sw := exSwitches) (s := exSt) (e := .valueError) rfl (by decide +kernel) with
    ⟨pre, f, post, h1, h2, h3⟩ | ⟨h, -⟩ | ⟨-, h, -⟩
  · have : pre = [(str "timing", none)] := by
      have hf : firstCalls { exFull with convergence := some .valueError } exSwitches (fidOk { exFull with convergence := some .valueError }) =
          [(str "timing", none), (str "convergence", some .valueError), (str "trace", none), (str "slices", none)] := by decide +kernel
      rw [hf] at h1
      match pre, h1, h2 with
      | [], h1, _ => simp at h1
      | [a], h1, _ => simp at h1; rw [h1.1]
      | a :: b :: l, h1, h2 =>
        simp at h1
        have := h2 b (by simp)
        rw [← h1.2.1] at this
        cases this
    rw [h3, this]; decide +kernel
  · cases h
  · cases h

example : (plotProgress 1 { exFull with isMain := false } exSwitches exSt) = (exSt, none) := (C135_backend 1 _ _ _).2 rfl

example : Warn.acqSample ∈ (match cornerSamples (exW 3 (some (.error .valueError)) none) (some 7) with | .ok (_, ws) => ws | .error _ => []) :=
  (C135_samples (w := exW 3 (some (.error .valueError)) none) (sw := exSwitches) (d := [(str "Fiducial", 7)]) (ws := [.acqSample]) rfl (fid := some 7) rfl rfl [] 0).2.2.2 rfl

example : (loopAll 1 (some exSwitches) [exFull, exW 4 none none] (exSt, [])).1.files.count (cornerFile (str "run/images") (str "png") 4) ≤ 1 :=
  (C135_run 1 (some exSwitches) (p := str "run/images") (e := str "png") [exFull, exW 4 none none] (fun w hw => by
    rcases List.mem_cons.1 hw with rfl | hw
    · exact ⟨rfl, rfl⟩
    · rw [List.mem_singleton.1 hw]; exact ⟨rfl, rfl⟩) (by decide) (exSt, []) (fun w _ => List.not_mem_nil)).1 (exW 4 none none)
      (List.mem_cons_of_mem _ (List.mem_singleton.2 rfl))

end GPry.PlotProg
