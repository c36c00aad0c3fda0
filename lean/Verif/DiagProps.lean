import Verif.Diag
import Mathlib.Algebra.Order.Field.Rat

set_option linter.all false

/-!
# Properties of the diagnosis callback (C138)
-/

namespace GPry.Diag

variable {K : Type} [DecidableEq K] [LinearOrder K] {B : Type}

theorem real_model : attr real "model" = some .attributeError := by decide

/-- **C138**: the processes other than the main one return at once. -/
theorem C138_others (g : Sig) (agg : B) (w : World K) (s : St B) (h : w.isMain = false) : diagnosis g agg w s = (s, none) := by
  unfold diagnosis
  rw [h]
  rfl

/-- **C138**, false of the code: with a classifier the callback always raises AttributeError (`runner.model` does not exist), before any
verdict. -/
theorem C138_classifier_counterexample (agg : B) (w : World K) (s : St B) (hm : w.isMain = true) (hc : w.checkClassifier = true)
    (d : Data K) (hd : w.classifier = some d) : diagnosis real agg w s = (s, some .attributeError) := by
  unfold diagnosis
  have e : classifierPart real w s = (s, some .attributeError) := by
    unfold classifierPart checkData
    rw [hc, if_pos rfl, hd, real_model]
  rw [hm, if_pos rfl, e]
  rfl

/-- **C138**, false of the code: without a classifier, if the folder can be created, it always raises too (unless both the sample was
reweighted and slices are disabled), nothing has been drawn, and the backend of `matplotlib` remains changed. -/
theorem C138_backend_counterexample (agg : B) (w : World K) (s : St B) (hm : w.isMain = true) (hd : w.classifier = none)
    (hp : w.createPath = none) (h : w.reweighted ≠ some true ∨ w.plotSlices = true) :
    diagnosis real agg w s = ({ s with folder := true, backend := agg }, some .attributeError) := by
  unfold diagnosis
  have e : classifierPart real w s = (s, none) := by
    unfold classifierPart
    rw [hd]
    split_ifs <;> rfl
  have e2 : folderPart w s = ({ s with folder := true }, none) := by
    unfold folderPart
    rw [hp]
  rw [hm, if_pos rfl, e]
  simp only [andThen, e2]
  unfold tracePart
  by_cases hr : w.reweighted = some true
  · rw [if_pos hr]
    have hs := h.resolve_left (by simp [hr])
    simp only
    unfold slicesPart
    rw [hs, if_pos rfl, real_model]
    rfl
  · rw [if_neg hr, real_model]
    rfl

/-- **C138**, false of the code: with the options of the module, the callback never returns in the main process. -/
theorem C138_never_returns_counterexample (agg : B) (w : World K) (s : St B) (hm : w.isMain = true) (hw : Default w) :
    (diagnosis real agg w s).2 ≠ none := by
  obtain ⟨h1, h2, h3⟩ := hw
  cases hd : w.classifier with
  | some d => rw [C138_classifier_counterexample agg w s hm h1 d hd]; simp
  | none =>
    cases hp : w.createPath with
    | none => rw [C138_backend_counterexample agg w s hm hd hp (.inr h3)]; simp
    | some e =>
      unfold diagnosis
      have e1 : classifierPart real w s = (s, none) := by
        unfold classifierPart
        rw [hd]
        split_ifs <;> rfl
      have e2 : folderPart w s = (s, some e) := by
        unfold folderPart
        rw [hp]
      rw [hm, if_pos rfl, e1]
      simp [andThen, e2]

/-- **C138**, false of the code even if `model` were an attribute of the runner: `is_finite` needs the values, and `truth` is given twice to
`plot_slices_reference`. -/
theorem C138_model_counterexample (agg : B) (w : World K) (s : St B) (hm : w.isMain = true) (hw : Default w) :
    (diagnosis { real with attrs := "model" :: real.attrs } agg w s).2 ≠ none := by
  obtain ⟨h1, h2, h3⟩ := hw
  have hg : attr { real with attrs := "model" :: real.attrs } "model" = none := by decide
  have hsl : ∀ s' : St B, (slicesPart { real with attrs := "model" :: real.attrs } w s').2 ≠ none := by
    intro s'
    unfold slicesPart
    rw [h3, if_pos rfl, hg]
    have hr : slicesRefCall { real with attrs := "model" :: real.attrs } w.plotSlicesRef = some .typeError := by
      unfold slicesRefCall
      rw [if_pos (.inl (by decide))]
    cases hc : w.plotSlicesCall with
    | some e => simp [orElse]
    | none => simp only [orElse, hr]; simp
  unfold diagnosis
  rw [hm, if_pos rfl]
  have at2 : ∀ (a : St B × Option Exc) (f : St B → St B × Option Exc), (∀ x, (f x).2 ≠ none) → (andThen a f).2 ≠ none := by
    intro a f hf
    unfold andThen
    cases a.2 with
    | some e => simp
    | none => exact hf _
  apply at2
  intro x
  apply at2
  intro y
  dsimp only
  apply at2
  intro z
  unfold andThen
  cases hz : (slicesPart { real with attrs := "model" :: real.attrs } w z).2 with
  | none => exact absurd hz (hsl z)
  | some e => simp

/-- **C138**, false of the code even if `model` were an attribute of the runner: with a classifier the verdict on the classifier is the last
thing printed, since `is_finite` is called without values. -/
theorem C138_is_finite_counterexample (agg : B) (w : World K) (s : St B) (hm : w.isMain = true) (hc : w.checkClassifier = true)
    (d : Data K) (hd : w.classifier = some d) (b : Bool) (hb : selfConsistent d = .ok b) :
    diagnosis { real with attrs := "model" :: real.attrs } agg w s =
      ({ s with verdicts := s.verdicts ++ [("classifier", b)] }, some .typeError) := by
  have hg : attr { real with attrs := "model" :: real.attrs } "model" = none := by decide
  have e : classifierPart { real with attrs := "model" :: real.attrs } w s =
      ({ s with verdicts := s.verdicts ++ [("classifier", b)] }, some .typeError) := by
    unfold classifierPart checkData
    rw [hc, if_pos rfl, hd, hg]; simp only [hb]
    rfl
  unfold diagnosis
  rw [hm, if_pos rfl, e]
  rfl

/-- **C138**, what remains: whatever names and signatures, if the callback returns then the backend of `matplotlib` is the one it was. -/
theorem C138_backend_partial (g : Sig) (agg : B) (w : World K) (s : St B) (h : (diagnosis g agg w s).2 = none) :
    (diagnosis g agg w s).1.backend = s.backend := by
  unfold diagnosis at *
  by_cases hm : w.isMain = true
  case neg => rw [if_neg hm]
  case pos =>
    rw [if_pos hm] at h ⊢
    have step : ∀ (a : St B × Option Exc) (f : St B → St B × Option Exc), (andThen a f).2 = none →
        a.2 = none ∧ andThen a f = f a.1 := by
      intro a f hf
      unfold andThen at *
      cases ha : a.2 with
      | some e => rw [ha] at hf; simp at hf
      | none => exact ⟨rfl, rfl⟩
    obtain ⟨a1, a2⟩ := step _ _ h
    rw [a2] at h ⊢
    obtain ⟨b1, b2⟩ := step _ _ h
    rw [b2] at h ⊢
    dsimp only at h ⊢
    obtain ⟨c1, c2⟩ := step _ _ h
    rw [c2] at h ⊢
    obtain ⟨d1, d2⟩ := step _ _ h
    rw [d2] at h ⊢
    obtain ⟨e1, e2⟩ := step _ _ h
    rw [e2]
    dsimp only
    have hb1 : ∀ x : St B, (folderPart w x).1.backend = x.backend := by
      intro x; unfold folderPart; cases w.createPath <;> rfl
    rw [hb1]
    -- the check of the data does not touch the backend
    have hb2 : ∀ (d : Data K) (x : St B), (checkData g d x).1.backend = x.backend := by
      intro d x
      unfold checkData
      cases attr g "model" with
      | some e => rfl
      | none =>
        dsimp only
        cases selfConsistent d with
        | error e => rfl
        | ok b => dsimp only; split_ifs <;> rfl
    unfold classifierPart
    split_ifs
    · cases hd : w.classifier with
      | none => rfl
      | some d => exact hb2 d s
    · rfl

/-! ## Membership -/

theorem npIn_iff (X : List (List K)) (p : List K) : npIn X p = true ↔ ∃ r ∈ X, ∃ k : ℕ, ∃ a, r[k]? = some a ∧ p[k]? = some a := by
  unfold npIn
  rw [List.any_eq_true]
  constructor
  · rintro ⟨r, hr, h⟩
    rw [List.any_eq_true] at h
    obtain ⟨b, hb, hb'⟩ := h
    obtain ⟨k, hk⟩ := List.mem_iff_getElem?.1 hb
    rw [List.getElem?_zipWith] at hk
    refine ⟨r, hr, k, ?_⟩
    cases h1 : r[k]? with
    | none => rw [h1] at hk; simp at hk
    | some a =>
      cases h2 : p[k]? with
      | none => rw [h1, h2] at hk; simp at hk
      | some c =>
        rw [h1, h2] at hk
        simp only [Option.some.injEq] at hk
        rw [← hk] at hb'
        have : a = c := by simpa using hb'
        exact ⟨a, rfl, by rw [this]⟩
  · rintro ⟨r, hr, k, a, h1, h2⟩
    refine ⟨r, hr, ?_⟩
    rw [List.any_eq_true]
    refine ⟨true, List.mem_iff_getElem?.2 ⟨k, ?_⟩, rfl⟩
    rw [List.getElem?_zipWith, h1, h2]
    simp

/-- **C138**: a point of the training set is found in it. -/
theorem C138_member (X : List (List K)) (p : List K) (hp : p ≠ []) (h : p ∈ X) : npIn X p = true := by
  rw [npIn_iff]
  obtain ⟨a, l, rfl⟩ := List.exists_cons_of_ne_nil hp
  exact ⟨_, h, 0, a, rfl, rfl⟩

/-- **C138**, false of the code: "`point in X_train`" holds for every point that shares a single coordinate with some training point. -/
theorem C138_member_counterexample (X : List (List K)) (r p : List K) (hr : r ∈ X) (k : ℕ) (a : K) (h1 : r[k]? = some a)
    (h2 : p[k]? = some a) : npIn X p = true := (npIn_iff X p).2 ⟨r, hr, k, a, h1, h2⟩

/-- Different points share no coordinate. -/
def NoShared (X : List (List K)) : Prop :=
  ∀ r ∈ X, ∀ p ∈ X, ∀ (k : ℕ) (a : K), r[k]? = some a → p[k]? = some a → r = p

/-- **C138**, what remains: among points that share no coordinate, the column `GP` marks exactly the points of the training set. -/
theorem C138_member_partial (X All : List (List K)) (hs : NoShared All) (hX : ∀ r ∈ X, r ∈ All) (p : List K) (hp : p ∈ All) (hne : p ≠ []) :
    npIn X p = true ↔ p ∈ X := by
  constructor
  · intro h
    obtain ⟨r, hr, k, a, h1, h2⟩ := (npIn_iff X p).1 h
    rw [← hs r (hX r hr) p hp k a h1 h2]
    exact hr
  · exact C138_member X p hne

theorem mem_select {α : Type} {l : List α} {f : List Bool} {a : α} (h : a ∈ select l f) : a ∈ l := by
  unfold select at h
  rw [List.mem_map] at h
  obtain ⟨x, hx, rfl⟩ := h
  exact (List.of_mem_zip (List.mem_of_mem_filter hx)).1

theorem select_cons {α : Type} (a : α) (l : List α) (b : Bool) (f : List Bool) :
    select (a :: l) (b :: f) = if b then a :: select l f else select l f := by
  unfold select
  rw [List.zip_cons_cons, List.filter_cons]
  cases b <;> simp

theorem map_select {α : Type} (l : List α) (f : List Bool) (hl : l.length = f.length) (hn : l.Nodup) (q : α → Bool)
    (hq : ∀ x ∈ l, q x = true ↔ x ∈ select l f) : l.map q = f := by
  induction l generalizing f with
  | nil => cases f with
    | nil => rfl
    | cons b f => simp at hl
  | cons a l ih =>
    cases f with
    | nil => simp at hl
    | cons b f =>
      rw [List.nodup_cons] at hn
      simp only [List.length_cons, Nat.add_right_cancel_iff] at hl
      rw [List.map_cons, ih f hl hn.2 ?_]
      · congr 1
        have := hq a List.mem_cons_self
        rw [select_cons] at this
        cases b with
        | true => simpa using this
        | false =>
          simp only [Bool.false_eq_true, if_false] at this
          have hna : a ∉ select l f := fun h => hn.1 (mem_select h)
          simpa [hna] using this
      · intro x hx
        rw [hq x (List.mem_cons_of_mem _ hx), select_cons]
        have hxa : x ≠ a := fun h => hn.1 (h ▸ hx)
        cases b <;> simp [hxa]

theorem length_select {α : Type} (l : List α) (f : List Bool) (hl : l.length = f.length) : (select l f).length = f.count true := by
  induction l generalizing f with
  | nil => cases f with
    | nil => rfl
    | cons b f => simp at hl
  | cons a l ih =>
    cases f with
    | nil => simp at hl
    | cons b f =>
      simp only [List.length_cons, Nat.add_right_cancel_iff] at hl
      rw [select_cons]
      cases b <;> simp [ih f hl]

/-- **C138**, what remains: for distinct points that share no coordinate, if the training set is what is finite of the full one (in any order,
without repetition) the verdict is positive; -/
theorem C138_sets_partial (d : Data K) (hs : NoShared d.XAll) (hne : ∀ p ∈ d.XAll, p ≠ []) (hn : d.XAll.Nodup)
    (hl : d.XAll.length = d.isFinite.length) (hp : d.X.Perm (select d.XAll d.isFinite)) (hy : d.y.length = d.X.length) :
    trainConsistent d = true := by
  have hX : ∀ r ∈ d.X, r ∈ d.XAll := fun r hr => mem_select (hp.mem_iff.1 hr)
  unfold trainConsistent
  rw [Bool.and_eq_true]
  constructor
  · rw [List.all_eq_true]
    intro p hpp
    exact C138_member d.X p (hne p (mem_select hpp)) (hp.mem_iff.2 hpp)
  · rw [decide_eq_true_eq]
    have e : inGP d = d.isFinite := by
      exact map_select d.XAll d.isFinite hl hn (npIn d.X) fun p hpp =>
        (C138_member_partial d.X d.XAll hs hX p hpp (hne p hpp)).trans hp.mem_iff
    rw [e, hy, hp.length_eq, length_select _ _ hl]

/-- and a positive verdict means that no finite point is missing. -/
theorem C138_sets_sound_partial (d : Data K) (hs : NoShared d.XAll) (hne : ∀ p ∈ d.XAll, p ≠ []) (hX : ∀ r ∈ d.X, r ∈ d.XAll)
    (h : trainConsistent d = true) : (∀ p ∈ select d.XAll d.isFinite, p ∈ d.X) ∧ (inGP d).count true = d.y.length := by
  unfold trainConsistent at h
  rw [Bool.and_eq_true, List.all_eq_true, decide_eq_true_eq] at h
  refine ⟨fun p hp => ?_, h.2⟩
  exact (C138_member_partial d.X d.XAll hs hX p (mem_select hp) (hne p (mem_select hp))).1 (h.1 p hp)

/-- Three points of which the last is not finite and shares a coordinate with the first. -/
def exData : Data ℚ := ⟨[[0, 1], [2, 3], [0, 5]], [1, 2, -100], [[0, 1], [2, 3]], [1, 2], [true, true, false], [true, true, false],
  [true, true, false], -50⟩

/-- **C138**, false of the code: the training sets are consistent and the verdict is negative. -/
theorem C138_sets_counterexample : exData.X = select exData.XAll exData.isFinite ∧ trainConsistent exData = false := by
  constructor <;> decide

/-- The first is missing from the training set, which has the point that is not finite instead. -/
def exData2 : Data ℚ := ⟨[[0, 1], [2, 3], [0, 3]], [1, 2, -100], [[2, 3], [0, 3], [2, 3]], [2, -100, 2], [true, true, false],
  [true, true, false], [true, true, false], -50⟩

/-- **C138**, false of the code: a finite point is missing and the verdict is positive. -/
theorem C138_missing_counterexample : [0, 1] ∈ select exData2.XAll exData2.isFinite ∧ [0, 1] ∉ exData2.X ∧ trainConsistent exData2 = true := by
  refine ⟨by decide, by decide, by decide⟩

/-! ## Examples -/

def exWorld (c : Option (Data ℚ)) : World ℚ := ⟨true, true, true, true, c, none, some false, true, none, none, none, none, none, none, 2, none⟩

def exSt : St String := ⟨"TkAgg", false, [], []⟩

example : diagnosis real "Agg" (exWorld none) exSt = (⟨"Agg", true, [], []⟩, some .attributeError) := by decide

example : diagnosis real "Agg" (exWorld (some exData)) exSt = (exSt, some .attributeError) :=
  C138_classifier_counterexample "Agg" _ exSt rfl rfl exData rfl

example : diagnosis { real with attrs := "model" :: real.attrs } "Agg" (exWorld (some exData)) exSt =
    ({ exSt with verdicts := [("classifier", false)] }, some .typeError) :=
  C138_is_finite_counterexample "Agg" _ exSt rfl rfl exData rfl false (by decide)

/-- Names and signatures with which it works. -/
def fixed : Sig := ⟨"model" :: real.attrs, true, ["model", "gpr", "X", "truth", "reference"]⟩

example : diagnosis fixed "Agg" (exWorld none) exSt =
    (⟨"TkAgg", true, [], ["trace", "timing", "slices", "comparison", "NORA", "contours"]⟩, none) := by decide

example : (diagnosis fixed "Agg" (exWorld none) exSt).1.backend = "TkAgg" :=
  C138_backend_partial fixed "Agg" (exWorld none) exSt (by decide)

example : NoShared ([[0, 1], [2, 3], [4, 5]] : List (List ℚ)) := by
  intro r hr p hp k a h1 h2
  simp only [List.mem_cons, List.not_mem_nil, or_false] at hr hp
  rcases k with _ | _ | k <;> rcases hr with rfl | rfl | rfl <;> rcases hp with rfl | rfl | rfl <;> simp at h1 h2 ⊢ <;> linarith

example : trainConsistent (⟨[[0, 1], [2, 3], [4, 5]], [1, 2, -100], [[2, 3], [0, 1]], [2, 1], [true, true, false], [true, true, false],
  [true, true, false], -50⟩ : Data ℚ) = true := by decide

example : diagnosis real "Agg" { exWorld none with isMain := false } exSt = (exSt, none) := C138_others real "Agg" _ exSt rfl

/-- **C138**, for a `Runner` with an attribute `model`: a trace that cannot be drawn yet (`ValueError`) does not end the callback, the timings are
drawn nevertheless; any other exception of the trace ends it before anything is drawn. -/
theorem C138_trace_partial (g : Sig) (hg : "model" ∈ g.attrs) (agg : B) (w : World K) (s : St B) (hm : w.isMain = true) (hd : w.classifier = none)
    (hp : w.createPath = none) (hr : w.reweighted ≠ some true) (hs : w.plotSlices = false) (hq : w.plotMc = false) (ht : w.plotTiming = none) :
    diagnosis g agg w s = match w.plotTrace with
      | none => ({ s with folder := true, files := s.files ++ ["trace", "timing"] }, none)
      | some .valueError => ({ s with folder := true, files := s.files ++ ["timing"] }, none)
      | some e => ({ s with folder := true, backend := agg }, some e) := by
  unfold diagnosis
  have e : classifierPart g w s = (s, none) := by
    unfold classifierPart
    rw [hd]
    split_ifs <;> rfl
  have e2 : folderPart w s = ({ s with folder := true }, none) := by
    unfold folderPart
    rw [hp]
  have e3 : attr g "model" = none := if_pos hg
  rw [hm, if_pos rfl, e]
  simp only [andThen, e2]
  unfold tracePart slicesPart mcPart
  rw [if_neg hr, e3, ht, hs, hq]
  cases w.plotTrace with
  | none => simp [orElse]
  | some x => cases x <;> simp [orElse]

example : diagnosis { real with attrs := "model" :: real.attrs } "Agg" { exWorld none with plotTrace := some .valueError, plotSlices := false, plotMc := false } exSt =
    (⟨"TkAgg", true, [], ["timing"]⟩, none) :=
  C138_trace_partial _ (by simp) "Agg" _ exSt rfl rfl rfl (by decide) rfl rfl rfl

/-- **C138**, for a `Runner` with an attribute `model` and NORA: a triangle plot or contours that cannot be drawn do not end the callback, whatever can
be drawn is; it raises exactly if the sample cannot be loaded, for exceptions of the triangle plot that are not caught, or, in two dimensions, for exceptions of the contours other than `ValueError`. -/
theorem C138_mc_partial (g : Sig) (hg : "model" ∈ g.attrs) (agg : B) (w : World K) (s : St B) (hm : w.isMain = true) (hd : w.classifier = none)
    (hp : w.createPath = none) (hr : w.reweighted ≠ some true) (hs : w.plotSlices = false) (hq : w.plotMc = true) (hn : w.isNora = true)
    (ht : w.plotTiming = none) (hu : w.plotTrace = none) :
    ((diagnosis g agg w s).2 = none ↔ w.mcSamples = none ∧ w.triangle ≠ some .typeError ∧ w.triangle ≠ some .other ∧
      (w.dim = 2 → w.contours = none ∨ w.contours = some .valueError)) ∧
    ((diagnosis g agg w s).2 = none → (diagnosis g agg w s).1 = { s with
      folder := true, files := s.files ++ ["trace", "timing"] ++ (if w.triangle = none then ["NORA"] else []) ++
        (if w.dim = 2 ∧ w.contours = none then ["contours"] else []) }) := by
  have e : classifierPart g w s = (s, none) := by
    unfold classifierPart
    rw [hd]
    split_ifs <;> rfl
  have e2 : folderPart w s = ({ s with folder := true }, none) := by
    unfold folderPart
    rw [hp]
  have e3 : attr g "model" = none := if_pos hg
  unfold diagnosis
  rw [hm, if_pos rfl, e]
  simp only [andThen, e2]
  unfold tracePart slicesPart mcPart
  rw [if_neg hr, e3, ht, hs, hq, hn, hu]
  by_cases h2 : w.dim = 2 <;> rcases hc : w.contours with _ | c <;> rcases h3 : w.triangle with _ | t <;> rcases h4 : w.mcSamples with _ | q <;>
    (try cases c) <;> (try cases t) <;> simp [orElse, caught, hr, h2]

/-- The triangle plot fails; the contours are drawn. -/
example : diagnosis { real with attrs := "model" :: real.attrs } "Agg" { exWorld none with triangle := some .drawing, plotSlices := false } exSt =
    (⟨"TkAgg", true, [], ["trace", "timing", "contours"]⟩, none) := by
  have h := C138_mc_partial { real with attrs := "model" :: real.attrs } (by simp) "Agg" { exWorld none with triangle := some .drawing, plotSlices := false } exSt
    rfl rfl rfl (by decide) rfl rfl rfl rfl rfl
  have h1 := h.1.2 ⟨rfl, (by decide), (by decide), fun _ => Or.inl rfl⟩
  exact Prod.ext (h.2 h1) h1

theorem exNoShared : NoShared ([[0, 1], [2, 3], [4, 5]] : List (List ℚ)) := by
  intro r hr p hp k a h1 h2
  simp only [List.mem_cons, List.not_mem_nil, or_false] at hr hp
  rcases k with _ | _ | k <;> rcases hr with rfl | rfl | rfl <;> rcases hp with rfl | rfl | rfl <;> simp at h1 h2 ⊢ <;> linarith

example : npIn ([[0, 1], [2, 3]] : List (List ℚ)) [2, 3] = true := C138_member _ _ (by simp) (by simp)

example : npIn ([[0, 1], [2, 3]] : List (List ℚ)) [4, 5] = false := by
  rw [← Bool.not_eq_true, C138_member_partial [[0, 1], [2, 3]] [[0, 1], [2, 3], [4, 5]] exNoShared (by simp) [4, 5] (by simp) (by simp)]
  decide +kernel

/-- Three points, the last one not finite; the regressor holds the others in another order. -/
def exData3 (X : List (List ℚ)) (y : List ℚ) : Data ℚ :=
  ⟨[[0, 1], [2, 3], [4, 5]], [1, 2, -100], X, y, [true, true, false], [true, true, false], [true, true, false], -50⟩

example : trainConsistent (exData3 [[2, 3], [0, 1]] [2, 1]) = true :=
  C138_sets_partial _ exNoShared (by simp [exData3]) (by simp [exData3]) rfl (by decide +kernel) rfl

example (X : List (List ℚ)) (y : List ℚ) (hX : ∀ r ∈ X, r ∈ [[0, 1], [2, 3], [4, 5]]) (h : trainConsistent (exData3 X y) = true) : [2, 3] ∈ X :=
  (C138_sets_sound_partial (exData3 X y) exNoShared (by simp [exData3]) hX h).1 _ (by simp [exData3, select])

end GPry.Diag
