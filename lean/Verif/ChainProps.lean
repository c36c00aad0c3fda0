import Verif.Chain
import Mathlib.Tactic.Linarith
import Mathlib.Data.List.Nodup

set_option linter.all false

/-! # C117: proposals from short chains -/

namespace GPry.Chain

variable {P R B : Type}

/-! ## The points kept of a chain -/

theorem stride_cons (n : ℕ) (x : P) (xs : List P) : stride n (x :: xs) = x :: stride n (xs.drop (n - 1)) := by rw [stride]

theorem stride_nil (n : ℕ) : stride n ([] : List P) = [] := by rw [stride]

theorem stride_get (n : ℕ) (hn : 0 < n) (l : List P) (i : ℕ) : (stride n l)[i]? = l[i * n]? := by
  generalize hm : l.length = m
  induction m using Nat.strong_induction_on generalizing l i with
  | _ m ih =>
    cases l with
    | nil => simp [stride_nil]
    | cons x xs =>
      rw [stride_cons]
      cases i with
      | zero => simp
      | succ i =>
        have : (i + 1) * n = (n - 1 + i * n) + 1 := by rw [Nat.succ_mul]; omega
        rw [this, List.getElem?_cons_succ, List.getElem?_cons_succ, ih (xs.drop (n - 1)).length (by simp at hm ⊢; omega) _ _ rfl, List.getElem?_drop]

theorem stride_sublist (n : ℕ) (l : List P) : List.Sublist (stride n l) l := by
  generalize hm : l.length = m
  induction m using Nat.strong_induction_on generalizing l with
  | _ m ih =>
    cases l with
    | nil => simp [stride_nil]
    | cons x xs =>
      rw [stride_cons]
      exact List.Sublist.cons_cons x ((ih (xs.drop (n - 1)).length (by simp at hm ⊢; omega) _ rfl).trans (List.drop_sublist _ _))

theorem stride_length (n : ℕ) (hn : 0 < n) (l : List P) : (stride n l).length = (l.length + n - 1) / n := by
  have h : ∀ i, i < (stride n l).length ↔ i * n < l.length := by
    intro i
    have := stride_get n hn l i
    constructor
    · intro h
      rw [List.getElem?_eq_getElem h] at this
      exact (List.getElem?_eq_some_iff.1 this.symm).1
    · intro h
      rw [List.getElem?_eq_getElem h] at this
      exact (List.getElem?_eq_some_iff.1 this).1
  have h2 : ∀ i, i < (l.length + n - 1) / n ↔ i * n < l.length := by
    intro i
    rw [← Nat.succ_le_iff, Nat.le_div_iff_mul_le hn, Nat.succ_mul]
    omega
  apply Nat.le_antisymm
  · by_contra hc
    push Not at hc
    exact absurd ((h2 _).2 ((h _).1 hc)) (lt_irrefl _)
  · by_contra hc
    push Not at hc
    exact absurd ((h _).2 ((h2 _).1 hc)) (lt_irrefl _)

/-- The kept points, first to last in the order of the chain. -/
theorem kept_get (n : ℕ) (hn : 0 < n) (pts : List P) (i : ℕ) (hi : i * n < pts.length) :
    (stride n pts.reverse).reverse[i]? = pts[(pts.length - 1) % n + i * n]? := by
  set L := pts.length with hL
  have hm : (stride n pts.reverse).length = (L - 1) / n + 1 := by
    rw [stride_length n hn, List.length_reverse, ← Nat.add_div_right _ hn]
    congr 1; omega
  have hdm := Nat.div_add_mod (L - 1) n
  have hi' : i ≤ (L - 1) / n := by rw [Nat.le_div_iff_mul_le hn]; omega
  rw [List.getElem?_reverse (by omega), stride_get n hn, hm, Nat.add_sub_cancel]
  have hs : ((L - 1) / n - i) * n + i * n = (L - 1) / n * n := by rw [← Nat.add_mul]; congr 1; omega
  have hc : n * ((L - 1) / n) = (L - 1) / n * n := Nat.mul_comm _ _
  rw [List.getElem?_reverse (by omega)]
  congr 1
  omega

/-! ## Proposals taken from the store -/

theorem getRaw_store (e : Env P R B) (r : R) (s : St P B) (l : List P) (x : P) (h : s.samples = l ++ [x]) :
    getRaw e r s = ({ s with samples := l }, .ok x) := by
  simp [getRaw, pop, h]

theorem history_store (e : Env P R B) (r : R) (f k : ℕ) (s : St P B) (hin : ∀ x ∈ s.samples, e.inB s.bounds x = true)
    (hk : k ≤ s.samples.length) : (history e (List.replicate k (.get r (f + 1))) s).2 = s.samples.reverse.take k := by
  induction k generalizing s with
  | zero => simp [history]
  | succ k ih =>
    rcases List.eq_nil_or_concat s.samples with h | ⟨l, x, h⟩
    · simp [h] at hk
    · rw [List.concat_eq_append] at h
      have hr := getRaw_store e r s l x h
      have hx : e.inB s.bounds x = true := hin x (by simp [h])
      have hg : get e r (f + 1) s = ({ s with samples := l }, some (.ok x)) := by simp [get, hr, hx]
      have hst : step e (.get r (f + 1)) s = ({ s with samples := l }, some x) := by simp [step, hg]
      rw [List.replicate_succ, history, hst, h]
      have := ih { s with samples := l } (fun y hy => hin y (by simp [h, hy])) (by simp [h] at hk; exact hk)
      simp only [this]
      simp

/-- A run that gives points fills the store. -/
theorem resample_ok (e : Env P R B) (r : R) (s : St P B) (pts : List P) (t : ℕ) (ht : s.train = some (t + 1)) (hr : 0 < s.nretries)
    (hn : 0 < s.nsteps) (h : e.run r s.runs = some pts) :
    resample e r s = ({ s with runs := s.runs + 1, samples := stride s.nsteps pts.reverse }, none) := by
  obtain ⟨m, hm⟩ := Nat.exists_eq_succ_of_ne_zero hr.ne'
  simp [resample, hm, attempts, ht, h, takeSteps, hn.ne']

theorem filterMap_range_get (g : ℕ → Option P) (k : ℕ) (h : ∀ j < k, ∃ y, g j = some y) (i : ℕ) :
    ((List.range k).filterMap g)[i]? = if i < k then g i else none := by
  have main : ((List.range k).filterMap g).length = k ∧ ∀ i, ((List.range k).filterMap g)[i]? = if i < k then g i else none := by
    induction k with
    | zero => simp
    | succ k ih =>
      obtain ⟨hl, ih⟩ := ih fun j hj => h j (by omega)
      obtain ⟨y, hy⟩ := h k (by omega)
      rw [List.range_succ, List.filterMap_append]
      refine ⟨by rw [List.length_append, hl]; simp [hy], fun i => ?_⟩
      rw [List.getElem?_append, hl]
      by_cases hi : i < k
      · rw [if_pos hi, ih, if_pos hi, if_pos (by omega)]
      · rw [if_neg hi]
        by_cases hik : i = k
        · subst hik; simp [hy]
        · rw [if_neg (by omega)]
          simp [hy]
          omega
  exact main.2 i

/-- **C117** Proposals of one chain: of a chain with points `pts` within the bounds, every `nsteps`-th one counted from the last, the
earliest first. -/
theorem C117_chain_partial (e : Env P R B) (r : R) (f k : ℕ) (s : St P B) (pts : List P) (t : ℕ) (hs : s.samples = []) (ht : s.train = some (t + 1))
    (hr : 0 < s.nretries) (hn : 0 < s.nsteps) (h : e.run r s.runs = some pts) (hin : ∀ x ∈ pts, e.inB s.bounds x = true)
    (hk : k ≤ (pts.length + s.nsteps - 1) / s.nsteps) :
    (history e (List.replicate k (.get r (f + 1))) s).2 =
      (List.range k).filterMap fun i => pts[(pts.length - 1) % s.nsteps + i * s.nsteps]? := by
  have hlen : (stride s.nsteps pts.reverse).length = (pts.length + s.nsteps - 1) / s.nsteps := by rw [stride_length _ hn, List.length_reverse]
  set s' : St P B := { s with runs := s.runs + 1, samples := stride s.nsteps pts.reverse } with hs'
  have hin' : ∀ x ∈ s'.samples, e.inB s'.bounds x = true := fun x hx => hin x (by simpa using (stride_sublist _ _).subset hx)
  have key : (history e (List.replicate k (.get r (f + 1))) s).2 = (stride s.nsteps pts.reverse).reverse.take k := by
    rw [← history_store e r f k s' hin' (by simpa [hs', hlen] using hk)]
    cases k with
    | zero => simp [history]
    | succ k =>
      have hpos : 0 < s'.samples.length := by show 0 < (stride s.nsteps pts.reverse).length; omega
      have hraw : getRaw e r s = getRaw e r s' := by
        rw [getRaw, getRaw, if_pos hpos, if_neg (by simp [hs]), resample_ok e r s pts t ht hr hn h]
      have hg : get e r (f + 1) s = get e r (f + 1) s' := by rw [get, get, hraw]
      have hst : step e (.get r (f + 1)) s = step e (.get r (f + 1)) s' := by simp [step, hg]
      rw [List.replicate_succ, history, history, hst]
  rw [key]
  apply List.ext_getElem?
  intro i
  have hall : ∀ j < k, ∃ y, pts[(pts.length - 1) % s.nsteps + j * s.nsteps]? = some y := by
    intro j hj
    have h1 : j < (pts.length + s.nsteps - 1) / s.nsteps := by omega
    have h2 : j * s.nsteps < pts.length := by
      rw [← Nat.succ_le_iff, Nat.le_div_iff_mul_le hn, Nat.succ_mul] at h1; omega
    rw [← kept_get _ hn pts j h2]
    exact ⟨_, List.getElem?_eq_getElem (by rw [List.length_reverse, hlen]; exact h1)⟩
  have hfm : ((List.range k).filterMap fun i => pts[(pts.length - 1) % s.nsteps + i * s.nsteps]?)[i]? =
      if i < k then pts[(pts.length - 1) % s.nsteps + i * s.nsteps]? else none := filterMap_range_get _ k hall i
  rw [hfm, List.getElem?_take]
  by_cases hi : i < k
  · rw [if_pos hi, if_pos hi]
    apply kept_get _ hn
    have h1 : i < (pts.length + s.nsteps - 1) / s.nsteps := by omega
    rw [← Nat.succ_le_iff, Nat.le_div_iff_mul_le hn, Nat.succ_mul] at h1; omega
  · rw [if_neg hi, if_neg hi]

/-! ## Bounds -/

theorem attempts_bounds (e : Env P R B) (r : R) (n : ℕ) (s : St P B) : (attempts e r n s).1.bounds = s.bounds := by
  induction n generalizing s with
  | zero => rfl
  | succ n ih =>
    rw [attempts]
    split
    · rfl
    · rfl
    · dsimp only
      split
      · rfl
      · exact ih _

theorem resample_bounds (e : Env P R B) (r : R) (s : St P B) : (resample e r s).1.bounds = s.bounds := by
  have := attempts_bounds e r s.nretries s
  unfold resample
  split <;> rename_i h <;> rw [h] at this <;> simpa [fallback] using this

theorem pop_bounds (s : St P B) : (pop s).1.bounds = s.bounds := by
  unfold pop; split <;> rfl

theorem getRaw_bounds (e : Env P R B) (r : R) (s : St P B) : (getRaw e r s).1.bounds = s.bounds := by
  have := resample_bounds e r s
  unfold getRaw
  split
  · exact pop_bounds s
  · split <;> rename_i h <;> rw [h] at this
    · exact this
    · rw [pop_bounds]; exact this

theorem get_bounds (e : Env P R B) (r : R) (f : ℕ) (s : St P B) : (get e r f s).1.bounds = s.bounds := by
  induction f generalizing s with
  | zero => rfl
  | succ f ih =>
    have := getRaw_bounds e r s
    rw [get]
    split <;> rename_i h <;> rw [h] at this
    · exact this
    · split
      · exact this
      · rw [ih]; exact this

theorem get_inB (e : Env P R B) (r : R) (f : ℕ) (s : St P B) (x : P) (h : (get e r f s).2 = some (.ok x)) : e.inB s.bounds x = true := by
  induction f generalizing s with
  | zero => simp [get] at h
  | succ f ih =>
    have hb := getRaw_bounds e r s
    rw [get] at h
    split at h
    · simp at h
    · rename_i s' y hy
      rw [hy] at hb
      by_cases hc : e.inB s.bounds y = true
      · simp [hc] at h; rw [← h]; exact hc
      · rw [if_neg hc] at h
        rw [← hb]; exact ih s' h

theorem step_inB (e : Env P R B) (o : Op R B) (s : St P B) (x : P) (h : (step e o s).2 = some x) : e.inB s.bounds x = true := by
  cases o with
  | get r f =>
    rw [step] at h
    split at h
    · rename_i s' y hy
      simp at h; subst h
      exact get_inB e r f s y (by rw [hy])
    · simp at h
  | update n => simp [step] at h
  | bounds b => simp [step] at h

/-- **C117** After a change of bounds, and until the next one, every proposal is within them: also those of chains stored before. -/
theorem C117_within (e : Env P R B) (b : B) (ops : List (Op R B)) (s : St P B) (hops : ∀ o ∈ ops, ∀ b', o ≠ .bounds b')
    (x : P) (hx : x ∈ (history e (.bounds b :: ops) s).2) : e.inB b x = true := by
  have main : ∀ (ops : List (Op R B)) (s : St P B), (∀ o ∈ ops, ∀ b', o ≠ .bounds b') → ∀ x ∈ (history e ops s).2, e.inB s.bounds x = true := by
    intro ops
    induction ops with
    | nil => intro s _ x hx; simp [history] at hx
    | cons o os ih =>
      intro s ho x hx
      rw [history] at hx
      rcases List.mem_append.1 hx with hx | hx
      · exact step_inB e o s x (by simpa using hx)
      · have hb : (step e o s).1.bounds = s.bounds := by
          cases o with
          | get r f =>
            have := get_bounds e r f s
            rw [step]
            split <;> rename_i h <;> rw [h] at this <;> exact this
          | update n => rfl
          | bounds b' => exact absurd rfl (ho (.bounds b') (by simp) b')
        rw [← hb]
        exact ih _ (fun o' h' => ho o' (List.mem_cons_of_mem _ h')) x hx
  have := main ops (updateBounds b s) hops x (by simpa [history, step] using hx)
  exact this

/-! ## Origin of the proposals -/

/-- Points of runs from `k` on, or uniform proposals from `j` on. -/
def Since (e : Env P R B) (k j : ℕ) (x : P) : Prop :=
  (∃ r i pts, k ≤ i ∧ e.run r i = some pts ∧ x ∈ pts) ∨ ∃ b i, j ≤ i ∧ x = e.unif b none i

/-- Points of runs before `k`, or uniform proposals before `j`. -/
def Before (e : Env P R B) (k j : ℕ) (x : P) : Prop :=
  (∃ r i pts, i < k ∧ e.run r i = some pts ∧ x ∈ pts) ∨ ∃ b i, i < j ∧ x = e.unif b none i

/-- A step that keeps or replaces the store: the new store has no repetitions and is new. -/
inductive Fill (e : Env P R B) (s : St P B) : St P B → Prop
  | keep (s') : s'.samples = s.samples → s.runs ≤ s'.runs → s.draws ≤ s'.draws → Fill e s s'
  | chain (s') (r i pts) : s.runs ≤ i → i < s'.runs → s.draws ≤ s'.draws → e.run r i = some pts → List.Sublist s'.samples pts.reverse → Fill e s s'
  | uniform (s') (b m) : s.runs ≤ s'.runs → s'.draws = s.draws + m → s'.samples = (List.range m).map (fun i => e.unif b none (s.draws + i)) → Fill e s s'

theorem attempts_fill (e : Env P R B) (r : R) (n : ℕ) (s : St P B) :
    Fill e s (attempts e r n s).1 ∧ (attempts e r n s).1.draws = s.draws ∧ ((attempts e r n s).2 = .ok false → s.runs ≤ (attempts e r n s).1.runs) := by
  induction n generalizing s with
  | zero => exact ⟨.keep _ rfl le_rfl le_rfl, rfl, fun _ => le_rfl⟩
  | succ n ih =>
    rw [attempts]
    split
    · exact ⟨.keep _ rfl le_rfl le_rfl, rfl, fun _ => le_rfl⟩
    · exact ⟨.keep _ rfl le_rfl le_rfl, rfl, fun _ => le_rfl⟩
    · dsimp only
      split
      · rename_i l hl
        obtain ⟨pts, hp, ht⟩ := Option.bind_eq_some_iff.1 hl
        refine ⟨.chain _ r s.runs pts le_rfl (Nat.lt_succ_self _) le_rfl hp ?_, rfl, fun h => (by simp at h)⟩
        unfold takeSteps at ht
        split at ht
        · simp at ht
        · simp at ht; rw [← ht]; exact stride_sublist _ _
      · have h := ih { s with runs := s.runs + 1 }
        refine ⟨?_, h.2.1, fun hf => le_trans (Nat.le_succ _) (h.2.2 hf)⟩
        cases h.1 with
        | keep a b c => exact .keep _ a (le_trans (Nat.le_succ _) b) c
        | chain r' i pts a b c d e' => exact .chain _ r' i pts (le_trans (Nat.le_succ _) a) b c d e'
        | uniform b m a c d => exact .uniform _ b m (le_trans (Nat.le_succ _) a) c d

theorem resample_fill (e : Env P R B) (r : R) (s : St P B) : Fill e s (resample e r s).1 := by
  have h := attempts_fill e r s.nretries s
  unfold resample
  split <;> rename_i s' hs <;> rw [hs] at h
  · exact h.1
  · exact h.1
  · refine .uniform _ s'.bounds s'.nsteps (h.2.2 rfl) ?_ ?_
    · simp [fallback]; exact h.2.1
    · simp only [fallback]; rw [show s'.draws = s.draws from h.2.1]

/-- The invariant: the store has no repetitions, comes from earlier runs, and has nothing of `G`. -/
structure Inv (e : Env P R B) (G : List P) (s : St P B) : Prop where
  nodup : s.samples.Nodup
  old : ∀ x ∈ s.samples, Before e s.runs s.draws x
  fresh : ∀ x ∈ s.samples, x ∉ G
  given : ∀ x ∈ G, Before e s.runs s.draws x

/-- All points of the runs and of the uniform proposer are different. -/
structure Distinct (e : Env P R B) : Prop where
  run : ∀ r i pts, e.run r i = some pts → pts.Nodup
  runs : ∀ r r' i i' pts pts', e.run r i = some pts → e.run r' i' = some pts' → i ≠ i' → ∀ x ∈ pts, x ∉ pts'
  unif : ∀ b b' i i', e.unif b none i = e.unif b' none i' → i = i'
  mixed : ∀ r i pts b j, e.run r i = some pts → e.unif b none j ∉ pts

theorem Before.mono {e : Env P R B} {k k' j j' : ℕ} {x : P} (h : Before e k j x) (hk : k ≤ k') (hj : j ≤ j') : Before e k' j' x := by
  rcases h with ⟨r, i, pts, hi, hp, hx⟩ | ⟨b, i, hi, hx⟩
  · exact .inl ⟨r, i, pts, by omega, hp, hx⟩
  · exact .inr ⟨b, i, by omega, hx⟩

theorem Inv.fill {e : Env P R B} (hd : Distinct e) {G : List P} {s s' : St P B} (h : Inv e G s) (hf : Fill e s s') : Inv e G s' := by
  cases hf with
  | keep a b c =>
    refine ⟨a ▸ h.nodup, fun x hx => (h.old x (a ▸ hx)).mono b c, fun x hx => h.fresh x (a ▸ hx), fun x hx => (h.given x hx).mono b c⟩
  | chain r i pts a b c d sub =>
    have hmem : ∀ x ∈ s'.samples, x ∈ pts := fun x hx => by simpa using sub.subset hx
    refine ⟨sub.nodup (List.nodup_reverse.2 (hd.run r i pts d)), fun x hx => .inl ⟨r, i, pts, b, d, hmem x hx⟩, fun x hx hG => ?_,
      fun x hx => (h.given x hx).mono (by omega) c⟩
    rcases h.given x hG with ⟨r', i', pts', hi', hp', hx'⟩ | ⟨b', i', hi', hx'⟩
    · exact hd.runs r' r i' i pts' pts hp' d (by omega) x hx' (hmem x hx)
    · exact hd.mixed r i pts b' i' d (hx' ▸ hmem x hx)
  | uniform b m a c d =>
    refine ⟨?_, fun x hx => ?_, fun x hx hG => ?_, fun x hx => (h.given x hx).mono a (by omega)⟩
    · rw [d]
      refine List.Nodup.map (fun i j hij => ?_) List.nodup_range
      have := hd.unif _ _ _ _ hij
      omega
    · rw [d] at hx
      obtain ⟨i, hi, rfl⟩ := List.mem_map.1 hx
      exact .inr ⟨b, s.draws + i, by rw [List.mem_range] at hi; omega, rfl⟩
    · rw [d] at hx
      obtain ⟨i, hi, rfl⟩ := List.mem_map.1 hx
      rcases h.given _ hG with ⟨r', i', pts', hi', hp', hx'⟩ | ⟨b', i', hi', hx'⟩
      · exact hd.mixed r' i' pts' _ _ hp' hx'
      · have := hd.unif _ _ _ _ hx'
        omega

theorem Inv.pop {e : Env P R B} {G : List P} {s s' : St P B} {x : P} (h : Inv e G s) (hp : pop s = (s', .ok x)) : Inv e (x :: G) s' ∧ x ∉ G := by
  unfold Chain.pop at hp
  split at hp
  · simp at hp
  · rename_i y hy
    simp only [Prod.mk.injEq, Except.ok.injEq] at hp
    obtain ⟨hs, hx⟩ := hp
    subst hs hx
    have hmem := List.mem_of_getLast? hy
    obtain ⟨l, hl⟩ := List.getLast?_eq_some_iff.1 hy
    have hdl : s.samples.dropLast = l := by rw [hl]; simp
    have hnd := h.nodup
    rw [hl, List.nodup_append] at hnd
    refine ⟨⟨?_, ?_, ?_, ?_⟩, h.fresh y hmem⟩
    · show s.samples.dropLast.Nodup
      rw [hdl]; exact hnd.1
    · intro z hz
      exact h.old z (List.dropLast_subset _ hz)
    · intro z hz hG
      rcases List.mem_cons.1 hG with rfl | hG
      · have hz' : z ∈ l := hdl ▸ hz
        exact hnd.2.2 z hz' z (by simp) rfl
      · exact h.fresh z (List.dropLast_subset _ hz) hG
    · intro z hz
      rcases List.mem_cons.1 hz with rfl | hz
      · exact h.old z hmem
      · exact h.given z hz

theorem Inv.weaken {e : Env P R B} {G : List P} {s : St P B} {x : P} (h : Inv e (x :: G) s) : Inv e G s :=
  ⟨h.nodup, h.old, fun z hz hG => h.fresh z hz (List.mem_cons_of_mem _ hG), fun z hz => h.given z (List.mem_cons_of_mem _ hz)⟩

theorem pop_error (s s' : St P B) (x : CErr) (h : pop s = (s', .error x)) : s' = s ∧ x = .indexError := by
  unfold pop at h
  split at h <;> simp at h
  exact ⟨h.1.symm, h.2.symm⟩

theorem Inv.getRaw {e : Env P R B} (hd : Distinct e) {G : List P} {s : St P B} (r : R) (h : Inv e G s) :
    Inv e G (getRaw e r s).1 ∧ ∀ x, (Chain.getRaw e r s).2 = .ok x → Inv e (x :: G) (Chain.getRaw e r s).1 ∧ x ∉ G := by
  have main : ∀ s : St P B, Inv e G s → Inv e G (Chain.pop s).1 ∧ ∀ x, (Chain.pop s).2 = .ok x → Inv e (x :: G) (Chain.pop s).1 ∧ x ∉ G := by
    intro s h
    rcases hp : Chain.pop s with ⟨s', x | x⟩
    · have := pop_error s s' x hp
      exact ⟨by rw [this.1]; exact h, fun y hy => (by simp at hy)⟩
    · have := h.pop hp
      exact ⟨this.1.weaken, fun y hy => by simp at hy; subst hy; exact this⟩
  unfold Chain.getRaw
  split
  · exact main s h
  · have hf := h.fill hd (resample_fill e r s)
    split <;> rename_i hs <;> rw [hs] at hf
    · exact ⟨hf, fun y hy => (by simp at hy)⟩
    · exact main _ hf

theorem Inv.get {e : Env P R B} (hd : Distinct e) {G : List P} (r : R) (f : ℕ) {s : St P B} (h : Inv e G s) :
    Inv e G (Chain.get e r f s).1 ∧ ∀ x, (Chain.get e r f s).2 = some (.ok x) → Inv e (x :: G) (Chain.get e r f s).1 ∧ x ∉ G := by
  induction f generalizing s with
  | zero => exact ⟨h, fun x hx => (by simp [Chain.get] at hx)⟩
  | succ f ih =>
    have hr := h.getRaw hd r
    rw [Chain.get]
    split <;> rename_i hs <;> rw [hs] at hr
    · exact ⟨hr.1, fun y hy => (by simp at hy)⟩
    · split
      · exact ⟨hr.1, fun y hy => by simp at hy; subst hy; exact hr.2 _ rfl⟩
      · exact ih hr.1

/-- **C117** No point of a chain is proposed twice: if the runs and the uniform proposer never repeat a point, neither does the proposer,
whatever the calls to `get`, `update` and `update_bounds`. -/
theorem C117_once (e : Env P R B) (hd : Distinct e) (b : B) (nsteps nretries : ℕ) (ops : List (Op R B)) :
    (history e ops (St.init b nsteps nretries)).2.Nodup := by
  have main : ∀ (ops : List (Op R B)) (G : List P) (s : St P B), Inv e G s → (history e ops s).2.Nodup ∧ ∀ x ∈ (history e ops s).2, x ∉ G := by
    intro ops
    induction ops with
    | nil => intro G s _; simp [history]
    | cons o os ih =>
      intro G s h
      rw [history]
      have hnone : ∀ s', Inv e G s' → step e o s = (s', none) → ((step e o s).2.toList ++ (history e os (step e o s).1).2).Nodup ∧
          ∀ x ∈ (step e o s).2.toList ++ (history e os (step e o s).1).2, x ∉ G := by
        intro s' h' hs
        rw [hs]
        simpa using ih G s' h'
      cases o with
      | get r f =>
        have hg := h.get hd r f
        rcases hh : get e r f s with ⟨s', _ | (x | x)⟩ <;> rw [hh] at hg
        · exact hnone s' hg.1 (by simp [step, hh])
        · exact hnone s' hg.1 (by simp [step, hh])
        · have h2 := hg.2 x rfl
          have hs : step e (.get r f) s = (s', some x) := by simp [step, hh]
          rw [hs]
          have := ih (x :: G) s' h2.1
          simp only [Option.toList_some, List.singleton_append, List.nodup_cons, List.mem_cons]
          refine ⟨⟨fun hx => this.2 x hx (by simp), this.1⟩, ?_⟩
          rintro y (rfl | hy)
          · exact h2.2
          · exact fun hG => this.2 y hy (List.mem_cons_of_mem _ hG)
      | update n => exact hnone (update n s) ⟨List.nodup_nil, fun x hx => (by simp [update] at hx), fun x hx => (by simp [update] at hx), h.given⟩ rfl
      | bounds b' => exact hnone (updateBounds b' s) ⟨h.nodup, h.old, h.fresh, h.given⟩ rfl
  exact (main ops [] _ ⟨List.nodup_nil, fun x hx => (by simp [St.init] at hx), fun x hx => (by simp [St.init] at hx), fun x hx => (by simp at hx)⟩).1

/-! ## Update -/

theorem Since.fill {e : Env P R B} {k j : ℕ} {s s' : St P B} (hk : k ≤ s.runs) (hj : j ≤ s.draws) (h : ∀ x ∈ s.samples, Since e k j x)
    (hf : Fill e s s') : k ≤ s'.runs ∧ j ≤ s'.draws ∧ ∀ x ∈ s'.samples, Since e k j x := by
  cases hf with
  | keep a b c => exact ⟨by omega, by omega, fun x hx => h x (a ▸ hx)⟩
  | chain r i pts a b c d sub =>
    exact ⟨by omega, by omega, fun x hx => .inl ⟨r, i, pts, by omega, d, by simpa using sub.subset hx⟩⟩
  | uniform b m a c d =>
    refine ⟨by omega, by omega, fun x hx => ?_⟩
    rw [d] at hx
    obtain ⟨i, hi, rfl⟩ := List.mem_map.1 hx
    exact .inr ⟨b, s.draws + i, by omega, rfl⟩

/-- The store and the next proposals come from runs `k`, `k + 1`, … and uniform proposals `j`, `j + 1`, …. -/
def From (e : Env P R B) (k j : ℕ) (s : St P B) : Prop := k ≤ s.runs ∧ j ≤ s.draws ∧ ∀ x ∈ s.samples, Since e k j x

theorem From.getRaw {e : Env P R B} {k j : ℕ} {s : St P B} (r : R) (h : From e k j s) :
    From e k j (getRaw e r s).1 ∧ ∀ x, (Chain.getRaw e r s).2 = .ok x → Since e k j x := by
  have main : ∀ s : St P B, From e k j s → From e k j (Chain.pop s).1 ∧ ∀ x, (Chain.pop s).2 = .ok x → Since e k j x := by
    intro s h
    unfold Chain.pop
    split
    · exact ⟨h, fun y hy => (by simp at hy)⟩
    · rename_i y hy
      exact ⟨⟨h.1, h.2.1, fun x hx => h.2.2 x (List.dropLast_subset _ hx)⟩, fun z hz => by
        simp at hz; subst hz; exact h.2.2 _ (List.mem_of_getLast? hy)⟩
  unfold Chain.getRaw
  split
  · exact main s h
  · have hf := Since.fill h.1 h.2.1 h.2.2 (resample_fill e r s)
    split <;> rename_i hs <;> rw [hs] at hf
    · exact ⟨hf, fun y hy => (by simp at hy)⟩
    · exact main _ hf

theorem From.get {e : Env P R B} {k j : ℕ} (r : R) (f : ℕ) {s : St P B} (h : From e k j s) :
    From e k j (Chain.get e r f s).1 ∧ ∀ x, (Chain.get e r f s).2 = some (.ok x) → Since e k j x := by
  induction f generalizing s with
  | zero => exact ⟨h, fun x hx => (by simp [Chain.get] at hx)⟩
  | succ f ih =>
    have hr := h.getRaw r
    rw [Chain.get]
    split <;> rename_i hs <;> rw [hs] at hr
    · exact ⟨hr.1, fun y hy => (by simp at hy)⟩
    · split
      · exact ⟨hr.1, fun y hy => by simp at hy; subst hy; exact hr.2 _ rfl⟩
      · exact ih hr.1

/-- **C117** After `update`, the proposals come from runs of the sampler, and uniform proposals, made after it: those stored are dropped. -/
theorem C117_update (e : Env P R B) (n : ℕ) (ops : List (Op R B)) (s : St P B) (x : P) (hx : x ∈ (history e (.update n :: ops) s).2) :
    (∃ r i pts, s.runs ≤ i ∧ e.run r i = some pts ∧ x ∈ pts) ∨ ∃ b i, s.draws ≤ i ∧ x = e.unif b none i := by
  have main : ∀ (ops : List (Op R B)) (k j : ℕ) (s : St P B), From e k j s → ∀ x ∈ (history e ops s).2, Since e k j x := by
    intro ops k j
    induction ops with
    | nil => intro s _ x hx; simp [history] at hx
    | cons o os ih =>
      intro s h x hx
      rw [history] at hx
      have hs : From e k j (step e o s).1 ∧ ∀ x, (step e o s).2 = some x → Since e k j x := by
        cases o with
        | get r f =>
          have hg := h.get r f
          rcases hh : Chain.get e r f s with ⟨s', _ | (y | y)⟩ <;> rw [hh] at hg <;> simp only [step, hh]
          · exact ⟨hg.1, fun _ h => (by simp at h)⟩
          · exact ⟨hg.1, fun _ h => (by simp at h)⟩
          · exact ⟨hg.1, fun z hz => by simp at hz; subst hz; exact hg.2 _ rfl⟩
        | update m => exact ⟨⟨h.1, h.2.1, fun x hx => (by simp [step, update] at hx)⟩, fun _ h => (by simp [step] at h)⟩
        | bounds b => exact ⟨h, fun _ h => (by simp [step] at h)⟩
      rcases List.mem_append.1 hx with hx | hx
      · exact hs.2 x (by simpa using hx)
      · exact ih _ hs.1 x hx
  exact main ops s.runs s.draws (update n s) ⟨le_rfl, le_rfl, fun x hx => (by simp [update] at hx)⟩ x (by simpa [history, step] using hx)

/-! ## Failures -/

theorem attempts_fail (e : Env P R B) (r : R) (n t : ℕ) (s : St P B) (ht : s.train = some (t + 1))
    (h : ∀ i < n, s.nsteps = 0 ∨ e.run r (s.runs + i) = none) : attempts e r n s = ({ s with runs := s.runs + n }, .ok false) := by
  induction n generalizing s with
  | zero => rfl
  | succ n ih =>
    have h0 : (e.run r s.runs).bind (takeSteps s.nsteps) = none := by
      rcases h 0 (by omega) with h | h
      · cases e.run r s.runs <;> simp [takeSteps, h]
      · simp at h; simp [h]
    rw [attempts]
    simp only [ht, h0]
    rw [ih _ (by simpa using ht) (fun i hi => by
      have := h (i + 1) (by omega)
      rw [show s.runs + (i + 1) = s.runs + 1 + i by omega] at this
      simpa using this)]
    simp only [Nat.add_assoc, Nat.add_comm 1 n, Prod.mk.injEq, and_true]

/-- **C117** If the sampler fails `nretries` times, the next `nsteps` proposals are uniform ones, the last drawn first; the random state
given is not used for them. -/
theorem C117_fallback (e : Env P R B) (r : R) (f k t : ℕ) (s : St P B) (hs : s.samples = []) (ht : s.train = some (t + 1))
    (h : ∀ i < s.nretries, e.run r (s.runs + i) = none) (hin : ∀ i, e.inB s.bounds (e.unif s.bounds none i) = true) (hk : k ≤ s.nsteps) :
    (history e (List.replicate k (.get r (f + 1))) s).2 = (List.range k).map fun i => e.unif s.bounds none (s.draws + (s.nsteps - 1 - i)) := by
  set s' : St P B := fallback e { s with runs := s.runs + s.nretries } with hs'
  have hin' : ∀ x ∈ s'.samples, e.inB s'.bounds x = true := by
    intro x hx
    simp only [hs', fallback, List.mem_map, List.mem_range] at hx
    obtain ⟨i, _, rfl⟩ := hx
    exact hin _
  have key : (history e (List.replicate k (.get r (f + 1))) s).2 = s'.samples.reverse.take k := by
    rw [← history_store e r f k s' hin' (by simpa [hs', fallback] using hk)]
    cases k with
    | zero => simp [history]
    | succ k =>
      have hpos : 0 < s'.samples.length := by simp [hs', fallback]; omega
      have hraw : getRaw e r s = getRaw e r s' := by
        rw [getRaw, getRaw, if_pos hpos, if_neg (by simp [hs])]
        simp only [resample, attempts_fail e r s.nretries t s ht (fun i hi => .inr (h i hi)), ← hs']
      have hg : get e r (f + 1) s = get e r (f + 1) s' := by rw [get, get, hraw]; rfl
      have hst : step e (.get r (f + 1)) s = step e (.get r (f + 1)) s' := by simp [step, hg]
      rw [List.replicate_succ, history, history, hst]
  rw [key]
  apply List.ext_getElem?
  intro i
  rw [List.getElem?_take]
  by_cases hi : i < k
  · rw [if_pos hi, List.getElem?_reverse (by simp [hs', fallback]; omega)]
    simp only [hs', fallback, List.length_map, List.length_range, List.getElem?_map, List.getElem?_range hi]
    rw [List.getElem?_range (by omega)]
    rfl
  · rw [if_neg hi]; simp; omega

/-- **C117** Where `get` raises instead: before `update`, without training points, if the sampler gives an empty chain, and if `nsteps`
is null. -/
theorem C117_raises (e : Env P R B) (r : R) (f : ℕ) (s : St P B) (hs : s.samples = []) (hr : 0 < s.nretries) :
    (s.train = none → (get e r (f + 1) s).2 = some (.error .attributeError)) ∧
    (s.train = some 0 → (get e r (f + 1) s).2 = some (.error .valueError)) ∧
    (∀ t, s.train = some (t + 1) → 0 < s.nsteps → e.run r s.runs = some [] → (get e r (f + 1) s).2 = some (.error .indexError)) ∧
    ∀ t, s.train = some (t + 1) → s.nsteps = 0 → (get e r (f + 1) s).2 = some (.error .indexError) := by
  obtain ⟨m, hm⟩ := Nat.exists_eq_succ_of_ne_zero hr.ne'
  refine ⟨fun h => ?_, fun h => ?_, fun t h hn hrun => ?_, fun t h hn => ?_⟩
  · simp [get, getRaw, hs, resample, hm, attempts, h]
  · simp [get, getRaw, hs, resample, hm, attempts, h]
  · have := resample_ok e r s [] t h hr hn hrun
    simp [get, getRaw, hs, this, pop, stride_nil]
  · have := attempts_fail e r s.nretries t s h (fun i hi => .inl hn)
    simp [get, getRaw, hs, resample, this, fallback, hn, pop]

/-! ## Examples -/

/-- Runs with points numbered from `100 k` on; uniform proposals from `-1` down. -/
def exEnv (len : ℕ → Option ℕ) : Env ℤ Unit (ℤ → Bool) where
  inB b x := b x
  run _ k := (len k).map fun n => (List.range n).map fun i => ((100 * k + i : ℕ) : ℤ)
  unif _ _ k := -1 - (k : ℤ)

/-- **C117** The proposals are not the `nsteps` last points of the chain: with the default numbers, 100 points and 20 steps, five points
are proposed, from the whole chain. -/
theorem C117_last_counterexample : (history (exEnv fun _ => some 100) (List.replicate 6 (.get () 1)) (update 3 (St.init (fun _ => true) 20 3))).2 =
    [19, 39, 59, 79, 99, 119] := by decide +kernel

example : (history (exEnv fun k => if k = 0 then some 25 else none) (List.replicate 3 (.get () 5) ++ [.bounds (fun x => x % 2 = 0)] ++ List.replicate 3 (.get () 5)) (update 3 (St.init (fun _ => true) 4 2))).2 =
    [0, 4, 8, 12, 16, 20] := by decide +kernel

example : (history (exEnv fun k => if k = 0 then some 6 else none) (List.replicate 3 (.get () 5) ++ [.bounds (fun x => x % 2 = 0)] ++ List.replicate 3 (.get () 5)) (update 3 (St.init (fun _ => true) 3 2))).2 =
    [2, 5, -3, -2, -6, -4] := by decide +kernel

theorem exDistinct : Distinct (exEnv fun k => if k = 3 then none else some 100) where
  run := by
    intro r i pts h
    simp only [exEnv, Option.map_eq_some_iff] at h
    obtain ⟨n, _, rfl⟩ := h
    exact List.Nodup.map (fun a b h => by simpa using h) List.nodup_range
  runs := by
    intro r r' i i' pts pts' h h' hi x hx hx'
    simp only [exEnv, Option.map_eq_some_iff] at h h'
    obtain ⟨n, hn, rfl⟩ := h
    obtain ⟨n', hn', rfl⟩ := h'
    split at hn <;> simp at hn
    split at hn' <;> simp at hn'
    simp at hx hx'
    omega
  unif := by intro b b' i i' h; simpa [exEnv] using h
  mixed := by
    intro r i pts b j h hx
    simp only [exEnv, Option.map_eq_some_iff] at h
    obtain ⟨n, hn, rfl⟩ := h
    simp [exEnv] at hx
    omega

/-! ## Each theorem applied to concrete data -/

/-- A chain of 6 points thinned by 3. -/
example : (history (exEnv fun _ => some 6) (List.replicate 2 (.get () 5)) (update 3 (St.init (fun _ => true) 3 2))).2 = [2, 5] :=
  C117_chain_partial (exEnv fun _ => some 6) () 4 2 (update 3 (St.init (fun _ => true) 3 2)) [0, 1, 2, 3, 4, 5] 2 rfl rfl (by decide) (by decide) rfl
    (by decide) (by decide)

example (x : ℤ) (hx : x ∈ (history (exEnv fun _ => some 6) [.bounds (fun x => x % 2 = 0), .update 3, .get () 9, .get () 9] (St.init (fun _ => true) 3 2)).2) :
    decide (x % 2 = 0) = true := C117_within (exEnv fun _ => some 6) (fun x => x % 2 = 0) [.update 3, .get () 9, .get () 9] _ (by simp) x hx

example : (history (exEnv fun k => if k = 3 then none else some 100) (.update 3 :: List.replicate 50 (.get () 5)) (St.init (fun _ => true) 20 3)).2.Nodup :=
  C117_once _ exDistinct _ _ _ _

/-- After an update nothing of the first chain (0 to 99) is proposed. -/
example (x : ℤ) (s : St ℤ (ℤ → Bool)) (h : s.runs = 1) (hx : x ∈ (history (exEnv fun _ => some 100) (.update 3 :: List.replicate 9 (.get () 5)) s).2) : x < 0 ∨ 100 ≤ x := by
  rcases C117_update _ 3 _ s x hx with ⟨r, i, pts, hi, hp, hx⟩ | ⟨b, i, -, rfl⟩
  · right
    simp only [exEnv, Option.map_some, Option.some.injEq] at hp
    subst hp
    simp at hx
    omega
  · left
    simp only [exEnv]
    omega

/-- No run succeeds. -/
example : (history (exEnv fun _ => none) (List.replicate 2 (.get () 5)) (update 3 (St.init (fun _ => true) 3 2))).2 = [-3, -2] :=
  C117_fallback (exEnv fun _ => none) () 4 2 2 (update 3 (St.init (fun _ => true) 3 2)) rfl rfl (fun _ _ => rfl) (fun _ => rfl) (by decide)

example : (get (exEnv fun _ => none) () 5 (St.init (fun _ => true) 3 2)).2 = some (.error .attributeError) :=
  (C117_raises (exEnv fun _ => none) () 4 (St.init (fun _ => true) 3 2) rfl (by decide)).1 rfl

end GPry.Chain
