import Verif.RunnerOut
import Verif.TruthProps

set_option linter.all false

namespace GPry.RunnerOut

open GPry Truth

/-! ## C120: the surrogate likelihood -/

theorem logprior_inside (t : Truth) (bounds : List (ℝ × ℝ)) (hb : t.bounds = bounds.map fun b => (.fin b.1, .fin b.2))
    (hlt : ∀ b ∈ bounds, b.1 < b.2) (v : List ℝ) (hv : List.Forall₂ (fun v b => b.1 ≤ v ∧ v ≤ b.2) v bounds) :
    Truth.logprior t (v.map .fin) = .fin (-(bounds.map fun b => Real.log (b.2 - b.1)).sum) := by
  have hin := Tools.C46_closed_box bounds (v.map .fin) (by simp [hv.length_eq])
  rw [← hb] at hin
  unfold Truth.logprior logPriorVolume
  rw [if_pos (hin.2 ⟨v, rfl, hv⟩), hb, volume_fin bounds hlt]
  rfl

theorem logprior_outside (t : Truth) (bounds : List (ℝ × ℝ)) (hb : t.bounds = bounds.map fun b => (.fin b.1, .fin b.2))
    (x : List (Ext ℝ)) (hx : x.length = bounds.length)
    (hv : ¬ ∃ v : List ℝ, x = v.map .fin ∧ List.Forall₂ (fun v b => b.1 ≤ v ∧ v ≤ b.2) v bounds) :
    Truth.logprior t x = .negInf := by
  have hin := Tools.C46_closed_box bounds x hx
  rw [← hb] at hin
  unfold Truth.logprior
  rw [if_neg fun hc => hv (hin.1 hc)]

/-- **C120**, partial: at one point inside finite bounds, `logL` is the prediction plus the logarithm of the volume of the prior; in
particular, where the surrogate is exact it is the log-likelihood. -/
theorem C120_logL_partial (mean : List (Ext ℝ) → Ext ℝ) (t : Truth) (bounds : List (ℝ × ℝ))
    (hb : t.bounds = bounds.map fun b => (.fin b.1, .fin b.2)) (hlt : ∀ b ∈ bounds, b.1 < b.2) (v : List ℝ)
    (hv : List.Forall₂ (fun v b => b.1 ≤ v ∧ v ≤ b.2) v bounds) (X : Pts) (hX : X = .one (v.map .fin) ∨ X = .many (v.map .fin) []) :
    logL mean t X = .ok [(mean (v.map .fin)).addFin (bounds.map fun b => Real.log (b.2 - b.1)).sum] ∧
    ∀ l, t.loglike.call [.vec (v.map .fin)] = .ok l → (Truth.logp t (v.map .fin)).2 = .ok (mean (v.map .fin)) →
      logL mean t X = .ok [l] := by
  have hlp := logprior_inside t bounds hb hlt v hv
  have h1 : logL mean t X = .ok [(mean (v.map .fin)).addFin (bounds.map fun b => Real.log (b.2 - b.1)).sum] := by
    have hr : X.rows = [v.map .fin] := by rcases hX with rfl | rfl <;> rfl
    unfold logL logprior logp
    rw [hr]
    dsimp only [List.map]
    rw [hlp]
    cases mean (v.map .fin) <;> simp [add, Ext.neg, Ext.addFin]
  refine ⟨h1, fun l hl hm => ?_⟩
  rw [h1]
  unfold Truth.logp at hm
  dsimp only at hm
  rw [hlp, if_neg (by simp), hl] at hm
  dsimp only at hm
  rw [← Except.ok.inj hm]
  cases l <;> simp [add, Ext.addFin]

/-- **C120**: the likelihood of the model given to Cobaya has this same value. -/
theorem C120_cobaya (mean : List (Ext ℝ) → Ext ℝ) (t : Truth) (bounds : List (ℝ × ℝ))
    (hb : t.bounds = bounds.map fun b => (.fin b.1, .fin b.2)) (hlt : ∀ b ∈ bounds, b.1 < b.2) (v : List ℝ)
    (hv : List.Forall₂ (fun v b => b.1 ≤ v ∧ v ≤ b.2) v bounds) (params : List String) (kwargs : Cobaya.Dict String ℝ)
    (hk : params.mapM (Cobaya.get kwargs) = some v) {l : Ext ℝ}
    (h : Cobaya.lkl (fun x => mean (x.map .fin)) params (bounds.map fun b => Real.log (b.2 - b.1)).sum kwargs = .ok l) :
    logL mean t (.one (v.map .fin)) = .ok [l] := by
  rw [(C120_logL_partial mean t bounds hb hlt v hv _ (.inl rfl)).1]
  unfold Cobaya.lkl at h
  rw [hk] at h
  rw [← Except.ok.inj h]

/-- **C120** outside: where the posterior of the surrogate is finite, its likelihood is reported as `+inf`, and where it is `-inf`, as
NaN. -/
theorem C120_outside_counterexample (mean : List (Ext ℝ) → Ext ℝ) (t : Truth) (bounds : List (ℝ × ℝ))
    (hb : t.bounds = bounds.map fun b => (.fin b.1, .fin b.2)) (x : List (Ext ℝ)) (hx : x.length = bounds.length)
    (hv : ¬ ∃ v : List ℝ, x = v.map .fin ∧ List.Forall₂ (fun v b => b.1 ≤ v ∧ v ≤ b.2) v bounds) :
    (∀ m, mean x = .fin m → logL mean t (.one x) = .ok [.posInf]) ∧
    (mean x = .negInf → logL mean t (.one x) = .ok [.nan]) := by
  have hlp := logprior_outside t bounds hb x hx hv
  constructor
  · intro m hm
    unfold logL logprior logp Pts.rows
    dsimp only [List.map]
    rw [hlp, hm]
    rfl
  · intro hm
    unfold logL logprior logp Pts.rows
    dsimp only [List.map]
    rw [hlp, hm]
    rfl

/-- **C120** for a list of at least two points: `logp` returns one value for each of them and `logL` raises. -/
theorem C120_many_counterexample (mean : List (Ext ℝ) → Ext ℝ) (t : Truth) (x y : List (Ext ℝ)) (xs : List (List (Ext ℝ))) :
    logp mean (.many x (y :: xs)) = mean x :: mean y :: xs.map mean ∧ logL mean t (.many x (y :: xs)) = .error .valueError :=
  ⟨rfl, rfl⟩

/-- C120: a point of the unit square and one outside. -/
example : ∃ (t : Truth) (bounds : List (ℝ × ℝ)) (v : List ℝ) (x : List (Ext ℝ)),
    (t.bounds = bounds.map fun b => (.fin b.1, .fin b.2)) ∧ (∀ b ∈ bounds, b.1 < b.2) ∧
    List.Forall₂ (fun v b => b.1 ≤ v ∧ v ≤ b.2) v bounds ∧ bounds.length = 2 ∧ x.length = 2 ∧
    t.loglike.call [.vec (v.map .fin)] = .ok (.fin 3) ∧
    ¬ ∃ v : List ℝ, x = v.map .fin ∧ List.Forall₂ (fun v b => b.1 ≤ v ∧ v ≤ b.2) v bounds := by
  let t : Truth := ⟨[(.fin 0, .fin 1), (.fin 0, .fin 1)], ⟨[⟨.posOrKw, false⟩], fun _ => .ok (.fin 3)⟩⟩
  refine ⟨t, [(0, 1), (0, 1)], [1, 1 / 2], [.fin 1, .posInf], rfl, by simp, .cons (by norm_num) (.cons (by norm_num) .nil), rfl, rfl,
    rfl, ?_⟩
  rintro ⟨v, hv, hf⟩
  cases hf with
  | cons h1 h2 => cases h2 with
    | cons h3 h4 => simp at hv

/-! ## C120: messages -/

/-- **C120**: a message is printed, once, unless its level is above the verbosity. -/
theorem C120_log (verbose : ℤ) (msg : Str) (level : Option ℤ) :
    (log verbose msg level = [] ↔ ∃ l, level = some l ∧ verbose < l) ∧ (log verbose msg level ≠ [] → log verbose msg level = [msg]) := by
  unfold log
  cases level with
  | none => simp
  | some l =>
    dsimp only
    split
    · rename_i h; simp; omega
    · rename_i h; simp; omega

theorem lstrip_spec (s : Str) : ∃ a, s = List.replicate a '\n' ++ lstrip s ∧ ∀ c, (lstrip s).head? = some c → c ≠ '\n' := by
  induction s with
  | nil => exact ⟨0, rfl, by simp [lstrip]⟩
  | cons c s ih =>
    unfold lstrip
    split
    · rename_i h
      obtain ⟨a, h1, h2⟩ := ih
      refine ⟨a + 1, ?_, h2⟩
      rw [List.replicate_succ, List.cons_append, ← h1, h]
    · rename_i h
      refine ⟨0, rfl, fun d hd => ?_⟩
      simp at hd
      rw [← hd]; exact h

theorem strip_spec (s : Str) : ∃ a b, s = List.replicate a '\n' ++ strip s ++ List.replicate b '\n' ∧
    (∀ c, (strip s).head? = some c → c ≠ '\n') ∧ (∀ c, (strip s).getLast? = some c → c ≠ '\n') := by
  obtain ⟨a, h1, h2⟩ := lstrip_spec s
  obtain ⟨b, h3, h4⟩ := lstrip_spec (lstrip s).reverse
  have h5 : lstrip s = strip s ++ List.replicate b '\n' := by
    have := congrArg List.reverse h3
    rw [List.reverse_reverse, List.reverse_append, List.reverse_replicate] at this
    exact this
  refine ⟨a, b, ?_, fun c hc => ?_, fun c hc => ?_⟩
  · rw [List.append_assoc, ← h5]; exact h1
  · apply h2 c
    rw [h5, List.head?_append, hc]
    rfl
  · apply h4 c
    unfold strip at hc
    rw [List.getLast?_reverse] at hc
    exact hc

/-- The lines put together again. -/
def unlines : List Str → Str
  | [] => []
  | [l] => l
  | l :: ls => l ++ '\n' :: unlines ls

theorem split_ne_nil (s : Str) : split s ≠ [] := by
  cases s with
  | nil => simp [split]
  | cons c s =>
    unfold split
    split
    · simp
    · cases h : split s <;> simp

theorem split_spec (s : Str) : unlines (split s) = s ∧ ∀ l ∈ split s, '\n' ∉ l := by
  induction s with
  | nil => simp [split, unlines]
  | cons c s ih =>
    obtain ⟨h1, h2⟩ := ih
    unfold split
    cases h : split s with
    | nil => exact absurd h (split_ne_nil s)
    | cons l ls =>
      rw [h] at h1 h2
      split
      · rename_i hc
        refine ⟨?_, ?_⟩
        · show [] ++ '\n' :: unlines (l :: ls) = _
          rw [h1, hc]; rfl
        · intro m hm
          rcases List.mem_cons.1 hm with rfl | hm
          · simp
          · exact h2 m hm
      · rename_i hc
        dsimp only
        refine ⟨?_, ?_⟩
        · rw [← h1]
          cases ls <;> rfl
        · intro m hm
          rcases List.mem_cons.1 hm with rfl | hm
          · intro hn
            rcases List.mem_cons.1 hn with hn | hn
            · exact hc hn.symm
            · exact h2 l (List.mem_cons_self) hn
          · exact h2 m (List.mem_cons_of_mem _ hm)

theorem flatMap_log (verbose : ℤ) (level : Option ℤ) (L : List Str) (h : ∀ l, level = some l → l ≤ verbose) :
    (L.flatMap fun l => log verbose l level) = L := by
  induction L with
  | nil => rfl
  | cons a L ih =>
    rw [List.flatMap_cons, ih]
    unfold log
    cases level with
    | none => rfl
    | some l => dsimp only; rw [if_pos (h l rfl)]; rfl

/-- **C120**: a banner prints nothing when its level is above the verbosity. Otherwise what it prints between its rules is the text
without the newlines at its ends, one line of output for each of its lines, each beginning with the prefix and the whole line: nothing
of the text is lost, whatever its length. -/
theorem C120_banner_text (verbose : ℤ) (text : Str) (w : ℕ) (pre suf : Str) (header footer : Rule) (level : Option ℤ) :
    ((∃ l, level = some l ∧ verbose < l) → banner verbose text w pre suf header footer level = []) ∧
    ((∀ l, level = some l → l ≤ verbose) → ∃ H B F : List Str, banner verbose text w pre suf header footer level = H ++ B ++ F ∧
      H.length ≤ 1 ∧ F.length ≤ 1 ∧ ∃ (a b : ℕ) (lines : List Str),
        text = List.replicate a '\n' ++ unlines lines ++ List.replicate b '\n' ∧ (∀ l ∈ lines, '\n' ∉ l) ∧
        (∀ c, (unlines lines).head? = some c → c ≠ '\n') ∧ (∀ c, (unlines lines).getLast? = some c → c ≠ '\n') ∧
        List.Forall₂ (fun out line => (pre ++ line) <+: out) B lines) := by
  refine ⟨?_, fun h => ?_⟩
  · rintro ⟨l, rfl, hl⟩
    unfold banner
    rw [List.flatMap_eq_nil_iff]
    intro x _
    exact (C120_log verbose x (some l)).1.2 ⟨l, rfl, hl⟩
  · have hr : ∀ r : Rule, (ruleLine w r).length ≤ 1 := by
      intro r
      unfold ruleLine
      split <;> simp
    refine ⟨ruleLine w header, (split (strip text)).map (bodyLine w pre suf), ruleLine w footer, flatMap_log verbose level _ h,
      hr _, hr _, ?_⟩
    obtain ⟨a, b, h1, h2, h3⟩ := strip_spec text
    obtain ⟨h4, h5⟩ := split_spec (strip text)
    refine ⟨a, b, split (strip text), by rw [h4]; exact h1, h5, by rw [h4]; exact h2, by rw [h4]; exact h3, ?_⟩
    rw [List.forall₂_map_left_iff, List.forall₂_same]
    intro l _
    unfold bodyLine
    dsimp only
    split
    · rw [List.append_assoc]; exact List.prefix_append _ _
    · exact List.prefix_refl _

/-- **C120**: if the lines fit, and the rules are single characters (or absent), everything printed has the width asked for, and the
lines of the text end with the suffix. -/
theorem C120_banner_box (verbose : ℤ) (text : Str) (w : ℕ) (pre suf : Str) (header footer : Rule) (level : Option ℤ)
    (hfit : ∀ lines : List Str, unlines lines = strip text → (∀ l ∈ lines, '\n' ∉ l) →
      ∀ l ∈ lines, pre.length + l.length + suf.length ≤ w)
    (hh : ∀ s, header = .str s → s.length ≤ 1) (hf : ∀ s, footer = .str s → s.length ≤ 1) :
    (∀ l ∈ banner verbose text w pre suf header footer level, l.length = w) ∧
    ((∀ l, level = some l → l ≤ verbose) → ∀ l ∈ split (strip text),
      ∃ n, pre ++ l ++ List.replicate n ' ' ++ suf ∈ banner verbose text w pre suf header footer level) := by
  have hr : ∀ r : Rule, (∀ s, r = .str s → s.length ≤ 1) → ∀ l ∈ ruleLine w r, l.length = w := by
    intro r h l hl
    unfold ruleLine at hl
    split at hl
    · simp at hl
    · rename_i s hs
      rw [List.mem_singleton.1 hl]
      have h1 := h s rfl
      match s, hs, h1 with
      | [c], _, _ => simp
    · simp at hl
    · rw [List.mem_singleton.1 hl]; simp
  have hfit' := hfit (split (strip text)) (split_spec _).1 (split_spec _).2
  refine ⟨?_, fun h l hl => ?_⟩
  · intro l hl
    unfold banner at hl
    obtain ⟨m, hm, hlm⟩ := List.mem_flatMap.1 hl
    have : l = m := by
      unfold log at hlm
      cases level with
      | none => simpa using hlm
      | some k =>
        dsimp only at hlm
        split at hlm <;> simp at hlm
        exact hlm
    rw [this]
    rcases List.mem_append.1 hm with hm | hm
    · rcases List.mem_append.1 hm with hm | hm
      · exact hr _ hh m hm
      · obtain ⟨k, hk, rfl⟩ := List.mem_map.1 hm
        have := hfit' k hk
        unfold bodyLine
        simp only [List.length_append]
        rw [if_pos this]
        simp only [List.length_append, List.length_replicate]
        omega
    · exact hr _ hf m hm
  · unfold banner
    rw [flatMap_log verbose level _ h]
    refine ⟨w - (pre ++ l).length - suf.length, ?_⟩
    refine List.mem_append_left _ (List.mem_append_right _ (List.mem_map.2 ⟨l, hl, ?_⟩))
    unfold bodyLine
    dsimp only
    rw [if_pos (by have := hfit' l hl; simpa using this)]

/-- C120: the banner of the initial samples, narrow; and a line that does not fit. -/
example : banner 3 "\nab\n\nc\n".toList 8 "| ".toList " |".toList (.str ['=']) (.other true) (some 3) =
    ["========".toList, "| ab   |".toList, "|      |".toList, "| c    |".toList, "========".toList] := by decide +kernel

example : banner 3 "abcdef".toList 8 "| ".toList " |".toList (.str []) (.other false) (some 3) = ["| abcdef".toList] := by decide +kernel

/-! ## C120: directories -/

theorem createPath_sub (fs : FS) (p : Str) (v : Bool) : (∀ q ∈ fs, q ∈ (createPath fs p v).1) ∧ p ∈ (createPath fs p v).1 := by
  unfold createPath
  split
  · rename_i h
    exact ⟨fun _ hq => hq, by simpa using h⟩
  · unfold makedirs
    exact ⟨fun q hq => by simp [hq], by simp⟩

theorem createPath_again (fs : FS) (p : Str) (v : Bool) (h : p ∈ fs) : createPath fs p v = (fs, []) := by
  unfold createPath
  rw [if_pos (by simpa using h)]

/-- **C120**: the plots of a run with a checkpoint are saved directly inside of its directory, also if that is an absolute path or ends with a slash. -/
theorem C120_plots_inside (c : Str) (hc : c ≠ []) :
    (c.getLast? ≠ some '/' → plotsPath (some c) = c ++ '/' :: images ∧ c ∈ parents (plotsPath (some c))) ∧
    plotsPath (some (c ++ ['/'])) = c ++ '/' :: images ∧ c ∈ parents (plotsPath (some (c ++ ['/']))) := by
  have hp : c ∈ parents (c ++ '/' :: images) := by
    unfold parents
    rw [List.mem_filterMap]
    refine ⟨c.length, by simp, ?_⟩
    rw [if_pos ⟨by simp, List.length_pos_iff.2 hc⟩]
    simp
  have h2 : plotsPath (some (c ++ ['/'])) = c ++ '/' :: images := by
    show join _ _ = _
    unfold join
    simp
  refine ⟨fun hl => ?_, h2, by rw [h2]; exact hp⟩
  have h1 : plotsPath (some c) = c ++ '/' :: images := by
    show join _ _ = _
    unfold join
    rw [← List.head?_reverse] at hl
    cases hr : c.reverse with
    | nil => exact absurd (List.reverse_eq_nil_iff.1 hr) hc
    | cons a l =>
      rw [hr] at hl
      dsimp only
      rw [if_neg (by simpa using hl)]
  rw [h1]
  exact ⟨rfl, hp⟩

example : plotsPath (some "/data/run".toList) = "/data/run/images".toList ∧ plotsPath (some "/data/run/".toList) = "/data/run/images".toList := by decide +kernel

/-- **C120**: only the main process creates directories; afterwards those asked for exist, and none has been removed. With an empty
`checkpoint` only the directory of the plots is created, in the working directory. -/
theorem C120_paths (checkpoint : Option Str) (verbose : ℤ) (plots : Bool) (fs : FS) :
    ensurePaths false checkpoint verbose plots fs = (fs, []) ∧
    (∀ q ∈ fs, q ∈ (ensurePaths true checkpoint verbose plots fs).1) ∧
    (∀ c, checkpoint = some c → c ≠ [] → c ∈ (ensurePaths true checkpoint verbose plots fs).1) ∧
    (plots = true → plotsPath checkpoint ∈ (ensurePaths true checkpoint verbose plots fs).1) ∧
    (verbose < 3 → (ensurePaths true checkpoint verbose plots fs).2 = []) ∧
    plotsPath (some []) = plotsPath none := by
  refine ⟨rfl, ?_, ?_, ?_, ?_, rfl⟩
  · intro q hq
    unfold ensurePaths
    rw [if_pos rfl]
    dsimp only
    split <;> split <;> first
      | exact (createPath_sub _ _ _).1 _ ((createPath_sub _ _ _).1 _ hq)
      | exact (createPath_sub _ _ _).1 _ hq
      | exact hq
  · rintro c rfl hc
    unfold ensurePaths
    rw [if_pos rfl]
    dsimp only
    cases c with
    | nil => exact absurd rfl hc
    | cons a c =>
      dsimp only
      split
      · exact (createPath_sub _ _ _).1 _ (createPath_sub _ _ _).2
      · exact (createPath_sub _ _ _).2
  · rintro rfl
    unfold ensurePaths
    rw [if_pos rfl]
    dsimp only
    rw [if_pos rfl]
    exact (createPath_sub _ _ _).2
  · intro hv
    have h0 : ∀ fs p, (createPath fs p (decide (3 ≤ verbose))).2 = [] := by
      intro fs p
      unfold createPath
      split
      · rfl
      · simp; omega
    unfold ensurePaths
    rw [if_pos rfl]
    dsimp only
    split <;> split <;> simp [h0]

/-- **C120**: a second call, in any process and with any verbosity, changes and announces nothing. -/
theorem C120_paths_again (main main' : Bool) (checkpoint : Option Str) (verbose verbose' : ℤ) (plots : Bool) (fs : FS)
    (hm : main = true ∨ main' = false) :
    ensurePaths main' checkpoint verbose' plots (ensurePaths main checkpoint verbose plots fs).1 =
      ((ensurePaths main checkpoint verbose plots fs).1, []) := by
  cases main' with
  | false => rfl
  | true =>
    have : main = true := by rcases hm with h | h; exacts [h, by cases h]
    subst this
    obtain ⟨_, _, h3, h4, _, _⟩ := C120_paths checkpoint verbose plots fs
    generalize ensurePaths true checkpoint verbose plots fs = r at h3 h4 ⊢
    have h1 : ∀ c cs, checkpoint = some (c :: cs) → createPath r.1 (c :: cs) (decide (3 ≤ verbose')) = (r.1, []) :=
      fun c cs h => createPath_again _ _ _ (h3 _ h (by simp))
    unfold ensurePaths
    rw [if_pos rfl]
    dsimp only
    cases plots with
    | false =>
      rw [if_neg (by simp)]
      split
      · exact h1 _ _ rfl
      · rfl
    | true =>
      rw [if_pos rfl]
      split
      · rw [h1 _ _ rfl, createPath_again _ _ _ (h4 rfl)]
        rfl
      · rw [createPath_again _ _ _ (h4 rfl)]
        rfl

/-- C120: a nested checkpoint, created in an empty file system. -/
example : ensurePaths true (some "a/b".toList) 3 true [] =
    (["a".toList, "a/b".toList, "a/b/images".toList], ["a/b".toList, "a/b/images".toList]) := by decide +kernel

/-- C120: the truth of the examples: two parameters in `[0,2]` and `[0,3]`, log-likelihood 3. -/
noncomputable def exTruth : Truth := ⟨[(.fin 0, .fin 2), (.fin 0, .fin 3)], ⟨[⟨.posOrKw, false⟩], fun _ => .ok (.fin 3)⟩⟩

example (mean : List (Ext ℝ) → Ext ℝ) (h : mean [.fin 1, .fin 1] = .fin 5) :
    logL mean exTruth (.one [.fin 1, .fin 1]) = .ok [.fin (5 + (Real.log 2 + Real.log 3))] := by
  have := (C120_logL_partial mean exTruth [(0, 2), (0, 3)] rfl (by norm_num) [1, 1] (.cons (by norm_num) (.cons (by norm_num) .nil)) (.one [.fin 1, .fin 1]) (.inl rfl)).1
  rw [this]
  simp [h, Ext.addFin]

/-- C120: the likelihood given to Cobaya and the method `logL` agree. -/
example (mean : List (Ext ℝ) → Ext ℝ) {l : Ext ℝ}
    (h : Cobaya.lkl (fun x => mean (x.map .fin)) ["a", "b"] (Real.log 2 + Real.log 3) [("b", 2), ("a", 1)] = .ok l) :
    logL mean exTruth (.one [.fin 1, .fin 2]) = .ok [l] :=
  C120_cobaya mean exTruth [(0, 2), (0, 3)] rfl (by norm_num) [1, 2] (.cons (by norm_num) (.cons (by norm_num) .nil)) ["a", "b"] [("b", 2), ("a", 1)]
    (by simp [Cobaya.get]) (by simpa using h)

example : log 3 "text".toList (some 4) = [] ∧ log 3 "text".toList none = ["text".toList] :=
  ⟨(C120_log 3 _ _).1.mpr ⟨4, rfl, by norm_num⟩, (C120_log 3 _ _).2 (by decide)⟩

/-- C120: a title of two lines at a level that is printed. -/
example : ∃ H B F : List Str, banner 3 "ab\nc\n".toList 8 "| ".toList " |".toList (.str ['=']) (.other true) (some 1) = H ++ B ++ F ∧
    H.length ≤ 1 ∧ F.length ≤ 1 := by
  obtain ⟨H, B, F, h, hH, hF, -⟩ := (C120_banner_text 3 "ab\nc\n".toList 8 "| ".toList " |".toList (.str ['=']) (.other true) (some 1)).2 (by simp)
  exact ⟨H, B, F, h, hH, hF⟩

example : "chains/x".toList ∈ (ensurePaths true (some "chains/x".toList) 1 true ["other".toList]).1 ∧
    "other".toList ∈ (ensurePaths true (some "chains/x".toList) 1 true ["other".toList]).1 ∧
    "chains/x/images".toList ∈ (ensurePaths true (some "chains/x".toList) 1 true ["other".toList]).1 := by
  obtain ⟨-, h1, h2, h3, -⟩ := C120_paths (some "chains/x".toList) 1 true ["other".toList]
  exact ⟨h2 _ rfl (by decide), h1 _ (by simp), h3 rfl⟩

end GPry.RunnerOut
