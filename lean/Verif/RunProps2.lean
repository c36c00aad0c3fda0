import Verif.RunProps
import Verif.GprEx
import Mathlib.Data.List.Perm.Lattice

set_option linter.all false

/-!
# Proofs about the runner: C34 (policies), C38 (refit schedule), C39 (best process), C54 (initial training), and C32 for
the modelled regressor
-/

namespace GPry.Run

/-! ## C34 -/

theorem foldl_accStep : ∀ (cs : List (Policy × Option Bool)) (a : Acc),
    ((cs.foldl accStep a).allNec = true ↔ a.allNec = true ∧ ∀ c ∈ cs, c.1.hasN = true → c.2 = some true) ∧
    ((cs.foldl accStep a).anySuf = true ↔ a.anySuf = true ∨ ∃ c ∈ cs, c.1.hasS = true ∧ c.2 = some true) ∧
    ((cs.foldl accStep a).nNec = 0 ↔ a.nNec = 0 ∧ ∀ c ∈ cs, c.1.hasN = false) ∧
    ((cs.foldl accStep a).nSuf = 0 ↔ a.nSuf = 0 ∧ ∀ c ∈ cs, c.1.hasS = false) := by
  intro cs
  induction cs with
  | nil => intro a; simp
  | cons c cs ih =>
    intro a
    obtain ⟨h1, h2, h3, h4⟩ := ih (accStep a c)
    rw [List.foldl_cons, h1, h2, h3, h4]
    obtain ⟨p, r⟩ := c
    rcases p with _ | _ | _ | _ <;> rcases r with _ | _ | _ <;>
      simp [accStep, Policy.hasN, Policy.hasS] <;> tauto

/-- **C34**: the run is declared converged iff there is a criterion that is not a mere monitor, all the necessary
criteria hold, and at least one of the sufficient ones does if there is any. An outcome `none` (check failed) counts as
not holding. -/
theorem C34_policies (cs : List (Policy × Option Bool)) :
    checkConvergence cs = true ↔
      (∃ c ∈ cs, c.1 ≠ .m) ∧
      (∀ c ∈ cs, c.1 = .n ∨ c.1 = .ns → c.2 = some true) ∧
      ((∃ c ∈ cs, c.1 = .s ∨ c.1 = .ns) → ∃ c ∈ cs, (c.1 = .s ∨ c.1 = .ns) ∧ c.2 = some true) := by
  obtain ⟨h1, h2, h3, h4⟩ := foldl_accStep cs {}
  have hN : ∀ p : Policy, p.hasN = true ↔ p = .n ∨ p = .ns := by intro p; cases p <;> simp [Policy.hasN]
  have hS : ∀ p : Policy, p.hasS = true ↔ p = .s ∨ p = .ns := by intro p; cases p <;> simp [Policy.hasS]
  have hM : ∀ p : Policy, p ≠ .m ↔ ¬ (p.hasN = false ∧ p.hasS = false) := by
    intro p; cases p <;> simp [Policy.hasN, Policy.hasS]
  simp only [true_and, Bool.false_eq_true, false_or] at h1 h2 h3 h4
  simp only [← hN, ← hS, hM]
  unfold checkConvergence
  dsimp only
  have hS' : (∃ c ∈ cs, c.1.hasS = true) ↔ ¬ (cs.foldl accStep {}).nSuf = 0 := by
    rw [h4]; push Not; simp
  rw [hS']
  have hE : (∃ c ∈ cs, ¬ (c.1.hasN = false ∧ c.1.hasS = false)) ↔
      ¬ ((cs.foldl accStep {}).nNec = 0 ∧ (cs.foldl accStep {}).nSuf = 0) := by
    rw [h3, h4]
    constructor
    · rintro ⟨c, hc, hn⟩ ⟨ha, hb⟩; exact hn ⟨ha c hc, hb c hc⟩
    · intro h
      by_contra hcon
      push Not at hcon
      apply h
      constructor
      · intro c hc
        by_contra hx
        have := hcon c hc
        by_cases h1 : c.1.hasN = false
        · exact hx h1
        · exact hx this.1
      · intro c hc; exact (hcon c hc).2
  rw [hE, ← h1, ← h2]
  split_ifs with hz
  · simp [hz]
  · simp only [Bool.and_eq_true, Bool.or_eq_true, beq_iff_eq, hz, not_false_eq_true, true_and]
    by_cases hs : (cs.foldl accStep {}).nSuf = 0
    · simp [hs]
    · simp [hs]

/-- **C34**: the order of the criteria does not matter. -/
theorem C34_order_irrelevant {cs cs' : List (Policy × Option Bool)} (h : cs.Perm cs') :
    checkConvergence cs = checkConvergence cs' := by
  rw [Bool.eq_iff_iff, C34_policies, C34_policies]
  simp only [h.mem_iff]

/-- **C34**: monitors never influence the result. -/
theorem C34_monitors_irrelevant (cs ms : List (Policy × Option Bool)) (hm : ∀ c ∈ ms, c.1 = .m) :
    checkConvergence (cs ++ ms) = checkConvergence cs := by
  rw [Bool.eq_iff_iff, C34_policies, C34_policies]
  have key : ∀ (Q : Policy × Option Bool → Prop), (∀ c, c.1 = .m → ¬ Q c) →
      ((∃ c ∈ cs ++ ms, Q c) ↔ ∃ c ∈ cs, Q c) := by
    intro Q hQ
    constructor
    · rintro ⟨c, hc, hq⟩
      rcases List.mem_append.1 hc with h | h
      · exact ⟨c, h, hq⟩
      · exact absurd hq (hQ c (hm c h))
    · rintro ⟨c, hc, hq⟩; exact ⟨c, List.mem_append_left _ hc, hq⟩
  rw [key (fun c => c.1 ≠ .m) (by intro c h; simpa using h),
    key (fun c => c.1 = .s ∨ c.1 = .ns) (by intro c h; simp [h]),
    key (fun c => (c.1 = .s ∨ c.1 = .ns) ∧ c.2 = some true) (by intro c h; simp [h])]
  have : (∀ c ∈ cs ++ ms, c.1 = .n ∨ c.1 = .ns → c.2 = some true) ↔
      ∀ c ∈ cs, c.1 = .n ∨ c.1 = .ns → c.2 = some true := by
    constructor
    · intro h c hc; exact h c (List.mem_append_left _ hc)
    · intro h c hc hp
      rcases List.mem_append.1 hc with h1 | h1
      · exact h c h1 hp
      · rw [hm c h1] at hp; simp at hp
  rw [this]

/-- **C34**: with `DontConverge` (a necessary criterion that always says no) in the list it never converges. -/
theorem C34_dont_converge (cs : List (Policy × Option Bool)) (h : (Policy.n, some false) ∈ cs) :
    checkConvergence cs = false := by
  rw [Bool.eq_false_iff, Ne, C34_policies]
  rintro ⟨-, h2, -⟩
  simpa using h2 _ h (Or.inl rfl)

/-- C34: examples. -/
example : checkConvergence [(.n, some true), (.s, some false), (.ns, some true), (.m, some false)] = true ∧
    checkConvergence [(.n, none), (.s, some true)] = false ∧ checkConvergence [(.m, some true)] = false ∧
    checkConvergence [(.s, some false), (.s, some true)] = true := by decide

/-! ## C38 -/

theorem unique_mod {e a : ℕ} (he : 0 < e) : ∃! i, (a ≤ i ∧ i < a + e) ∧ i % e = e - 1 := by
  refine ⟨a + (e - 1 - a % e), ⟨⟨by omega, by have := Nat.mod_lt a he; omega⟩, ?_⟩, ?_⟩
  · have hm := Nat.mod_lt a he
    have : a + (e - 1 - a % e) = (e - 1) + e * (a / e) := by
      have := Nat.div_add_mod a e; omega
    rw [this, Nat.add_mul_mod_self_left, Nat.mod_eq_of_lt (by omega)]
  · rintro j ⟨⟨h1, h2⟩, h3⟩
    have hm := Nat.mod_lt a he
    have hj := Nat.div_add_mod j e
    have ha := Nat.div_add_mod a e
    rw [h3] at hj
    have hq : j / e = a / e := by
      have h4 : e * (j / e) + (e - 1) < e * (a / e) + a % e + e := by omega
      have h5 : e * (a / e) + a % e ≤ e * (j / e) + (e - 1) := by omega
      have h6 : e * (j / e) < e * (a / e + 1) := by rw [Nat.mul_add]; omega
      have h7 : e * (a / e) < e * (j / e + 1) := by rw [Nat.mul_add]; omega
      have h8 := Nat.lt_of_mul_lt_mul_left h6
      have h9 := Nat.lt_of_mul_lt_mul_left h7
      omega
    rw [hq] at hj; omega

/-- **C38**, partial: each block of `fit_full_every` consecutive iteration numbers contains exactly one for a full fit;
each block of `fit_simple_every` exactly one for a simple fit or a full one instead of it; and a full fit distributes
all the restarts.  (What is missing: the fit of an iteration does not take place if the acquisition was insufficient,
see `C38_skipped_counterexample`.) -/
theorem C38_schedule_partial {full simple : ℕ} (hf : 0 < full) (hs : 0 < simple) (a : ℕ) :
    (∃! i, (a ≤ i ∧ i < a + full) ∧ fitKind full simple i = .full) ∧
    (∃ i, (a ≤ i ∧ i < a + simple) ∧ fitKind full simple i ≠ .none ∧
      ∀ j, a ≤ j → j < a + simple → fitKind full simple j = .simple → j = i) ∧
    (∀ i nOpt p, 0 < p → fitKind full simple i = .full →
      ((List.range p).map fun r => restarts full simple i nOpt p r).sum = nOpt) := by
  have hfull : ∀ i, fitKind full simple i = .full ↔ i % full = full - 1 := by
    have hf' : full ≠ 0 := by omega
    intro i; unfold fitKind; split_ifs <;> simp_all
  refine ⟨?_, ?_, ?_⟩
  · obtain ⟨i, hi, hu⟩ := unique_mod (a := a) hf
    exact ⟨i, ⟨hi.1, (hfull i).2 hi.2⟩, fun j hj => hu j ⟨hj.1, (hfull j).1 hj.2⟩⟩
  · obtain ⟨i, hi, hu⟩ := unique_mod (a := a) hs
    refine ⟨i, hi.1, ?_, ?_⟩
    · unfold fitKind
      split_ifs with h1 h2
      · simp
      · simp
      · exact absurd ⟨by omega, hi.2⟩ h2
    · intro j h1 h2 h3
      apply hu j ⟨⟨h1, h2⟩, ?_⟩
      unfold fitKind at h3
      split_ifs at h3 with h4 h5
      exact h5.2
  · intro i nOpt p hp hk
    unfold restarts
    rw [hk]
    obtain ⟨hl, hsum, -⟩ := Mpi.C01_split_number_balanced nOpt p hp
    dsimp only
    conv_rhs => rw [← hsum]
    congr 1
    apply List.ext_getElem
    · simp [hl]
    · intro k h1 h2
      simp [h2]

/-- C38: example of a schedule. -/
example : (List.range 7).map (fitKind 3 2) = [.none, .simple, .full, .simple, .none, .full, .none] := by decide

/-- Steps in which every second acquisition is insufficient. -/
def exSkip (i : ℕ) : Step ℕ ℕ := if i % 2 = 0 then exStep 0 false false else exStep 1 false false

/-- **C38**, negation with witness: with a full fit due every second iteration (odd numbers), and insufficient
acquisitions in them, a whole run (four evaluations) goes by without any full fit. -/
theorem C38_skipped_counterexample :
    (runLoop ⟨2, 3, 6, 6, 1, 2, 1, 2⟩ true id id (fun i _ => exSkip i) 100 2).map (fun r => (r.2, r.1.trace.filterMap fun e =>
      match e with | .evaluated it _ _ _ => some (fitKind 2 1 it) | _ => none)) =
    some (.finished, [.simple, .simple, .simple, .simple]) := by decide +kernel

/-! ## C39 -/

section Best
variable {V : Type*} [LinearOrder V]

theorem npArgmax_spec (l : List (Option V)) (hne : l ≠ []) :
    npArgmax l < l.length ∧
    ((∃ v ∈ l, v = none) → l[npArgmax l]? = some none) ∧
    ((∀ v ∈ l, v ≠ none) → ∃ a, l[npArgmax l]? = some (some a) ∧ (∀ b, some b ∈ l → b ≤ a) ∧
      ∀ j < npArgmax l, ∀ b, l[j]? = some (some b) → b < a) := by
  by_cases hN : l.any Option.isNone = true
  · have hlt : npArgmax l < l.length := by
      unfold npArgmax; rw [if_pos hN]
      rw [List.any_eq_true] at hN
      exact List.findIdx_lt_length.2 hN
    refine ⟨hlt, fun _ => ?_, fun h => ?_⟩
    · have : Option.isNone (l[npArgmax l]'hlt) = true := by
        have h2 : npArgmax l = l.findIdx Option.isNone := by unfold npArgmax; rw [if_pos hN]
        simp only [h2]
        exact List.findIdx_getElem
      rw [List.getElem?_eq_getElem hlt]
      simpa using this
    · rw [List.any_eq_true] at hN
      obtain ⟨v, hv, hv2⟩ := hN
      exact absurd (by simpa using hv2) (h v hv)
  · have hno : ∀ v ∈ l, v ≠ none := by
      intro v hv h
      apply hN
      rw [List.any_eq_true]
      exact ⟨v, hv, by simp [h]⟩
    have h2 : npArgmax l = l.findIdx fun v => l.all fun w => geNum v w := by
      unfold npArgmax; rw [if_neg hN]
    -- a maximum exists
    have hmax : ∃ v ∈ l, (l.all fun w => geNum v w) = true := by
      have : ∀ l : List (Option V), l ≠ [] → (∀ v ∈ l, v ≠ none) → ∃ a, some a ∈ l ∧ ∀ b, some b ∈ l → b ≤ a := by
        intro l
        induction l with
        | nil => intro h; exact absurd rfl h
        | cons x xs ih =>
          intro _ hx
          obtain ⟨a, ha⟩ : ∃ a, x = some a := Option.ne_none_iff_exists'.1 (hx x (by simp))
          subst ha
          by_cases hxs : xs = []
          · subst hxs; exact ⟨a, by simp, by simp⟩
          · obtain ⟨b, hb, hb2⟩ := ih hxs (fun v hv => hx v (by simp [hv]))
            rcases le_total a b with h | h
            · refine ⟨b, by simp [hb], ?_⟩
              intro c hc
              rcases List.mem_cons.1 hc with hc | hc
              · cases hc; exact h
              · exact hb2 c hc
            · refine ⟨a, by simp, ?_⟩
              intro c hc
              rcases List.mem_cons.1 hc with hc | hc
              · cases hc; exact le_rfl
              · exact (hb2 c hc).trans h
      obtain ⟨a, ha, ha2⟩ := this l hne hno
      refine ⟨some a, ha, ?_⟩
      rw [List.all_eq_true]
      intro w hw
      obtain ⟨b, rfl⟩ := Option.ne_none_iff_exists'.1 (hno w hw)
      simpa [geNum] using ha2 b hw
    have hlt : npArgmax l < l.length := by rw [h2]; exact List.findIdx_lt_length.2 hmax
    refine ⟨hlt, ?_, fun _ => ?_⟩
    · rintro ⟨v, hv, rfl⟩; exact absurd rfl (hno _ hv)
    · obtain ⟨a, ha⟩ := Option.ne_none_iff_exists'.1 (hno _ (List.getElem_mem hlt))
      have hall : (l.all fun w => geNum (l[npArgmax l]'hlt) w) = true := by
        simp only [h2]
        exact List.findIdx_getElem (w := by rw [← h2]; exact hlt)
      rw [ha, List.all_eq_true] at hall
      refine ⟨a, by rw [List.getElem?_eq_getElem hlt, ha], ?_, ?_⟩
      · intro b hb; simpa [geNum] using hall _ hb
      · intro j hj b hb
        by_contra hcon
        have hab : a ≤ b := not_lt.1 hcon
        rw [h2] at hj
        have := List.not_of_lt_findIdx hj
        have hjl : j < l.length := by
          rw [← h2] at hj; omega
        have hjb : l[j] = some b := by
          rw [List.getElem?_eq_getElem hjl] at hb; exact Option.some.inj hb
        simp only [hjb] at this
        apply Bool.false_ne_true
        rw [← this, List.all_eq_true]
        intro w hw
        obtain ⟨c, rfl⟩ := Option.ne_none_iff_exists'.1 (hno w hw)
        have := hall _ hw
        simp only [geNum, decide_eq_true_eq] at this ⊢
        exact this.trans hab

/-- **C39**: the process whose surrogate is shared is one that has appended the new points (it has restarts assigned, or
is the main one), whatever the likelihoods are (ties, `-inf`, even NaN); and if none is NaN its likelihood is the largest
one among the processes that have done so. -/
theorem C39_best_process [OrderBot V] {p : ℕ} (hp : 0 < p) (nRestarts : ℕ → ℕ) (lml : ℕ → Option V) :
    bestRank p nRestarts lml < p ∧
    (nRestarts (bestRank p nRestarts lml) ≠ 0 ∨ bestRank p nRestarts lml = 0) ∧
    ((∀ r < p, nRestarts r ≠ 0 ∨ r = 0 → lml r ≠ none) →
      ∃ a, lml (bestRank p nRestarts lml) = some a ∧
        ∀ r < p, nRestarts r ≠ 0 ∨ r = 0 → ∃ b, lml r = some b ∧ b ≤ a) := by
  obtain ⟨l, hl⟩ : ∃ l, l = (List.range p).map (contribution nRestarts lml) := ⟨_, rfl⟩
  have hne : l ≠ [] := by rw [hl]; simp; omega
  obtain ⟨h1, h2, h3⟩ := npArgmax_spec l hne
  have hb : bestRank p nRestarts lml = npArgmax l := by rw [hl]; rfl
  have hlen : l.length = p := by rw [hl]; simp
  have hget : ∀ j, j < p → l[j]? = some (contribution nRestarts lml j) := by
    intro j hj; rw [hl]; simp [hj]
  rw [hb]
  have hlt : npArgmax l < p := hlen ▸ h1
  have happ : nRestarts (npArgmax l) ≠ 0 ∨ npArgmax l = 0 := by
    by_contra hcon
    have hc : contribution nRestarts lml (npArgmax l) = some ⊥ := by
      unfold contribution; rw [if_neg hcon]
    by_cases hN : ∃ v ∈ l, v = none
    · have := h2 hN
      rw [hget _ hlt, hc] at this
      cases this
    · push Not at hN
      obtain ⟨a, ha, -, ha3⟩ := h3 hN
      rw [hget _ hlt, hc] at ha
      cases ha
      have h0 : 0 < npArgmax l := by
        push Not at hcon; omega
      obtain ⟨b, hb0⟩ := Option.ne_none_iff_exists'.1 (hN _ (List.mem_of_getElem? (hget 0 hp)))
      have := ha3 0 h0 b (by rw [hget 0 hp, hb0])
      exact absurd this (not_lt.2 bot_le)
  refine ⟨hlt, happ, fun hnan => ?_⟩
  have hN : ∀ v ∈ l, v ≠ none := by
    intro v hv
    rw [hl, List.mem_map] at hv
    obtain ⟨r, hr, rfl⟩ := hv
    rw [List.mem_range] at hr
    unfold contribution
    split_ifs with h
    · exact hnan r hr h
    · simp
  obtain ⟨a, ha, ha2, -⟩ := h3 hN
  rw [hget _ hlt] at ha
  have hca : contribution nRestarts lml (npArgmax l) = lml (npArgmax l) := by
    unfold contribution; rw [if_pos happ]
  rw [hca] at ha
  refine ⟨a, Option.some.inj ha, fun r hr hh => ?_⟩
  obtain ⟨b, hb⟩ := Option.ne_none_iff_exists'.1 (hnan r hr hh)
  refine ⟨b, hb, ha2 b ?_⟩
  have : contribution nRestarts lml r = some b := by unfold contribution; rw [if_pos hh, hb]
  rw [← this]
  exact List.mem_of_getElem? (hget r hr)

/-- C39: example: four processes, the last one without restarts, the best one is 2; and with `-inf` everywhere it is the
main one. -/
example : bestRank 4 (fun r => if r < 3 then 1 else 0) (fun r => some ((⟨(r * 3) % 7, by omega⟩ : Fin 8))) = 2 ∧
    bestRank 4 (fun r => if r = 1 then 0 else 1) (fun _ => some (0 : Fin 8)) = 0 := by decide +kernel

end Best

/-! ## C54 -/

section Init
open GPry.Gpr
variable {P PX Θ K : Type*} [Field K] [LinearOrder K] [IsStrictOrderedRing K]

theorem roundPts_length (p k : ℕ) (draw : ℕ → ℕ → ℕ → P × Ext K) (i : ℕ) : (roundPts p k draw i).length = p * k := by
  unfold roundPts
  rw [List.length_flatMap]
  simp

theorem initRounds_spec (cfg : Cfg P PX Θ K) (p k needed : ℕ) (draw : ℕ → ℕ → ℕ → P × Ext K) :
    ∀ (n i : ℕ) (acc : List (P × Ext K)),
      (initRounds cfg p k needed draw n i acc).1.length ≤ acc.length + n * (p * k) ∧
      ((initRounds cfg p k needed draw n i acc).2 = true →
        needed ≤ nFiniteNew cfg ((initRounds cfg p k needed draw n i acc).1.map Prod.snd)) ∧
      (∀ (Q : P × Ext K → Prop), (∀ q ∈ acc, Q q) → (∀ a b c, Q (draw a b c)) →
        ∀ q ∈ (initRounds cfg p k needed draw n i acc).1, Q q) := by
  intro n
  induction n with
  | zero => intro i acc; exact ⟨by simp [initRounds], by simp [initRounds], fun Q h _ => h⟩
  | succ n ih =>
    intro i acc
    unfold initRounds
    dsimp only
    have hQ : ∀ (Q : P × Ext K → Prop), (∀ q ∈ acc, Q q) → (∀ a b c, Q (draw a b c)) →
        ∀ q ∈ acc ++ roundPts p k draw i, Q q := by
      intro Q h1 h2 q hq
      rcases List.mem_append.1 hq with h | h
      · exact h1 q h
      · unfold roundPts at h
        rw [List.mem_flatMap] at h
        obtain ⟨r, -, hr⟩ := h
        rw [List.mem_map] at hr
        obtain ⟨j, -, rfl⟩ := hr
        exact h2 _ _ _
    split_ifs with h
    · refine ⟨?_, fun _ => h, hQ⟩
      rw [List.length_append, roundPts_length, Nat.add_mul]
      omega
    · obtain ⟨a, b, c⟩ := ih (i + 1) (acc ++ roundPts p k draw i)
      refine ⟨?_, b, fun Q h1 h2 => c Q (hQ Q h1 h2) h2⟩
      rw [List.length_append, roundPts_length] at a
      rw [Nat.add_mul]
      omega

/-- Every target counted as finite during the initial training is kept in the training set. -/
theorem initFinite_kept {cfg : Cfg P PX Θ K} (hc : CfgOk cfg) {ys : List (Ext K)}
    (hg : cfg.useSvm = true → ∀ y ∈ ys, Good y) {top : Ext K} (ht : Ext.pyMax ys = some top) {y : Ext K} (hy : y ∈ ys)
    (hf : initIsFinite cfg top y = true) : KeptBy cfg ys y := by
  intro hu
  have hg := hg hu
  have hne : ys ≠ [] := by rintro rfl; simp at hy
  obtain ⟨M, hM, hMm, hMup⟩ := npMax_good ys hg hne
  rw [pyMax_eq_npMax ys hg, hM, Option.some.injEq] at ht
  subst ht
  unfold initIsFinite at hf
  rw [if_pos hu] at hf
  rcases hg M hMm with rfl | ⟨m, rfl⟩
  · have := hMup y hy
    rcases hg y hy with rfl | ⟨v, rfl⟩
    · simp [Ext.sub, Ext.neg, isFiniteRaw, Ext.ge, Ext.le, Ext.isFinite] at hf
    · simp [Ext.le] at this
  · rcases hg y hy with rfl | ⟨v, rfl⟩
    · simp [Ext.sub, Ext.neg, isFiniteRaw, Ext.ge, Ext.le, Ext.isFinite] at hf
    · refine ⟨v, rfl, Or.inl ?_⟩
      intro w hw
      have hw' := hMup _ hw
      simp only [Ext.le, decide_eq_true_eq] at hw'
      simp only [Ext.sub, Ext.neg] at hf
      rw [within_iff cfg.thr hc.1] at hf
      exact within_of_le hf (by linarith)

/-- **C54**, partial: for a fresh surrogate, if the initial training does not raise, at least `n_initial` points are in
the training set, and the points appended are exactly the ones evaluated, all of them drawn from the proposer.  At most
`(max_initial + n_initial / SIZE) * SIZE` evaluations are made. (The bound of the property, `max_initial`, is
false: `C54_budget_counterexample`.) -/
theorem C54_initial_training_partial {cfg : Cfg P PX Θ K} (hc : CfgOk cfg) (px : PX) (py : PreY K) (s : Noise K)
    {p nInitial maxInitial : ℕ} (hp : 0 < p) {verbose : ℤ} {draw : ℕ → ℕ → ℕ → P × Ext K}
    (hg : cfg.useSvm = true → ∀ i r j, Good (draw i r j).2) {acc : List (P × Ext K)} {g : State P PX Θ K}
    (h : initialTraining cfg p nInitial maxInitial verbose draw (State.init px py s) = .ok (acc, g)) :
    nInitial ≤ g.yTrain.length ∧ g.xAll = acc.map Prod.fst ∧ g.yAll = acc.map Prod.snd ∧
    (∀ q ∈ acc, ∃ i r j, q = draw i r j) ∧
    acc.length ≤ (maxInitial + nInitial / p) * p := by
  obtain ⟨g0, hg0⟩ : ∃ g0 : State P PX Θ K, g0 = State.init px py s := ⟨_, rfl⟩
  have hy0 : g0.yTrain = [] := by rw [hg0]; rfl
  rw [← hg0] at h
  unfold initialTraining at h
  simp only [hy0, List.length_nil, Nat.sub_zero, List.zip_nil_right] at h
  by_cases hk : Mpi.ceilDiv nInitial p = 0
  · rw [if_pos hk] at h
    split_ifs at h
    cases h
    have : nInitial = 0 := by
      unfold Mpi.ceilDiv at hk
      rw [Nat.div_eq_zero_iff] at hk
      omega
    subst this
    subst hg0
    exact ⟨by simp, rfl, rfl, by simp, by simp⟩
  · rw [if_neg hk] at h
    obtain ⟨N, hN⟩ : ∃ N, N = Mpi.ceilDiv maxInitial (Mpi.ceilDiv nInitial p) := ⟨_, rfl⟩
    rw [← hN] at h
    obtain ⟨h1, h2, h3⟩ := initRounds_spec cfg p (Mpi.ceilDiv nInitial p) nInitial draw N 0 []
    generalize hR : initRounds cfg p (Mpi.ceilDiv nInitial p) nInitial draw N 0 [] = R at h h1 h2 h3
    obtain ⟨acc', b⟩ := R
    cases b with
    | false => simp at h
    | true =>
      simp only at h
      split at h
      · simp at h
      · rename_i g' happ
        cases h
        have hgood : cfg.useSvm = true → ∀ q ∈ acc, Good q.2 := by
          intro hu
          exact h3 (fun q => Good q.2) (by simp) (hg hu)
        have hgc : cfg.useSvm = true → ∀ y ∈ acc.map Prod.snd, Good y := by
          intro hu y hy
          rw [List.mem_map] at hy
          obtain ⟨q, hq, rfl⟩ := hy
          exact hgood hu q hq
        have hrun : run cfg (State.init px py s) [{ batch := some (acc.map Prod.fst, acc.map Prod.snd) }] = some g := by
          unfold run
          rw [← hg0, show append cfg g0 _ = (g, none) from happ]
          rfl
        have h10 := C10_training_partition hc px py s _ (by
          intro hu c hc' y hy
          simp only [List.mem_singleton] at hc'
          subst hc'
          exact hgc hu y (by simpa [Call.ys] using hy)) hrun
        simp only [List.map_cons, List.map_nil, List.flatten_cons, List.flatten_nil, List.append_nil, Call.xs, Call.ys,
          Option.map_some, Option.getD_some] at h10
        obtain ⟨hx, hy, -, -, hyt⟩ := h10
        refine ⟨?_, hx, hy, ?_, ?_⟩
        · refine (h2 rfl).trans ?_
          rw [hyt, List.length_map]
          unfold specTrain
          rw [hx, hy]
          have hzip : (acc.map Prod.fst).zip (acc.map Prod.snd) = acc := by
            rw [List.zip_map']; simp
          rw [hzip]
          unfold nFiniteNew
          split
          · simp
          · rename_i top htop
            rw [List.countP_map, ← List.countP_eq_length_filter]
            apply List.countP_mono_left
            intro q hq hf
            simp only [decide_eq_true_eq]
            exact initFinite_kept hc hgc htop (List.mem_map_of_mem hq) hf
        · exact h3 (fun q => ∃ i r j, q = draw i r j) (by simp) (fun a b c => ⟨a, b, c, rfl⟩)
        · refine h1.trans ?_
          rw [List.length_nil, Nat.zero_add, hN]
          have hkle : Mpi.ceilDiv nInitial p ≤ nInitial / p + 1 := by
            unfold Mpi.ceilDiv
            calc (nInitial + (p - 1)) / p ≤ (nInitial + p) / p := Nat.div_le_div_right (by omega)
              _ = nInitial / p + 1 := Nat.add_div_right _ hp
          generalize Mpi.ceilDiv nInitial p = k at hk hkle
          have hMk : Mpi.ceilDiv maxInitial k * k ≤ maxInitial + (k - 1) := by
            unfold Mpi.ceilDiv; exact Nat.div_mul_le_self _ _
          calc Mpi.ceilDiv maxInitial k * (p * k) = (Mpi.ceilDiv maxInitial k * k) * p := by ring
            _ ≤ (maxInitial + (k - 1)) * p := Nat.mul_le_mul_right _ hMk
            _ ≤ _ := Nat.mul_le_mul_right _ (by omega)

/-- C54: with one process and `max_initial` a multiple of `n_initial` the budget is respected. -/
theorem C54_budget_partial (cfg : Cfg P PX Θ K) {nInitial maxInitial : ℕ} (hn : 0 < nInitial) (hd : nInitial ∣ maxInitial)
    (draw : ℕ → ℕ → ℕ → P × Ext K) :
    (initRounds cfg 1 (Mpi.ceilDiv nInitial 1) nInitial draw (Mpi.ceilDiv maxInitial (Mpi.ceilDiv nInitial 1)) 0 []).1.length
      ≤ maxInitial := by
  refine (initRounds_spec cfg 1 _ nInitial draw _ 0 []).1.trans ?_
  have h1 : Mpi.ceilDiv nInitial 1 = nInitial := by simp [Mpi.ceilDiv]
  obtain ⟨q, rfl⟩ := hd
  rw [h1]
  have h2 : Mpi.ceilDiv (nInitial * q) nInitial = q := by
    unfold Mpi.ceilDiv
    rw [Nat.mul_add_div hn, Nat.div_eq_of_lt (by omega)]
    omega
  rw [h2]
  simp only [List.length_nil, Nat.zero_add, Nat.one_mul]
  rw [Nat.mul_comm]

/-! ### Examples and counterexamples -/

/-- Targets: every other point drawn is `-inf`. -/
def exDraw (i r j : ℕ) : ℕ × Ext ℚ := (100 * i + 10 * r + j, if (i + r + j) % 2 = 0 then .negInf else .fin j)

/-- Targets that are `-inf` except in round 1. -/
def exDrawBad (i r j : ℕ) : ℕ × Ext ℚ := (100 * i + 10 * r + j, if i = 1 then .fin j else .negInf)

/-- C54: example of the hypotheses, with two processes. -/
example : (∀ i r j, Good (exDraw i r j).2) ∧
    (initialTraining (exCfg true) 2 3 6 3 exDraw ex0).toOption.map (fun q => (q.1.map Prod.fst, q.2.xTrain)) =
      some ([0, 1, 10, 11, 100, 101, 110, 111], [1, 10, 100, 111]) := by
  refine ⟨fun i r j => ?_, by decide +kernel⟩
  unfold exDraw
  dsimp only
  split_ifs
  · exact .inl rfl
  · exact .inr ⟨_, rfl⟩

/-- **C54**, negation with witness: `max_initial = 3`, one process, but 4 evaluations; and `max_initial = 2` with two
processes, again 4. -/
theorem C54_budget_counterexample :
    (initialTraining (exCfg true) 1 2 3 3 exDrawBad ex0).toOption.map (fun q => q.1.length) = some 4 ∧
    (initialTraining (exCfg true) 2 2 2 3 exDrawBad ex0).toOption.map (fun q => q.1.length) = some 4 := by
  decide +kernel

/-- A surrogate that already has two finite points. -/
def exPre : State ℕ Unit ℕ ℚ := (append (exCfg true) ex0 { batch := some ([1, 2], [.fin 1, .fin 2]) }).1

/-- **C54** is false for a surrogate that already has points: they are appended a second time, and they are counted as
new ones, so that here the training ends with two different finite points although `n_initial = 4`. -/
theorem C54_pretrained_counterexample :
    (initialTraining (exCfg true) 1 4 8 3 (fun i r j => (10 + j, .negInf)) exPre).toOption.map
      (fun q => (q.1.map Prod.fst, q.2.xAll, q.2.xTrain)) =
    some ([1, 2, 10, 11], [1, 2, 1, 2, 10, 11], [1, 2, 1, 2]) := by decide +kernel

/-- C54: with enough points and low verbosity, a `ZeroDivisionError`. -/
theorem C54_zero_division_counterexample (draw : ℕ → ℕ → ℕ → ℕ × Ext ℚ) :
    initialTraining (exCfg true) 1 2 8 1 draw exPre = .error .zeroDivision := by
  have : exPre.yTrain.length = 2 := by decide +kernel
  unfold initialTraining
  simp [this, Mpi.ceilDiv]

/-! ## C32 for the modelled regressor -/

/-- `_eval_truth_parallel` and `_fit_gpr_parallel` with the modelled regressor. -/
def regressorStep (cfg : Cfg P PX Θ K) (truth : P → Ext K) (cands : List P) (fit : FitArg) (conv diag : Bool) :
    Step (State P PX Θ K) P where
  cands := cands
  fit := fun g => match append cfg g { batch := some (cands, cands.map truth), fit := fit } with
    | (g', none) => .ok g'
    | (_, some e) => .error e
  conv := conv
  diag := diag

theorem nTotal_of_noSvm {cfg : Cfg P PX Θ K} (hu : cfg.useSvm = false) {st : State P PX Θ K} (hi : Inv cfg st) :
    nTotal cfg st = st.yAll.length := by
  unfold nTotal
  simp only [hu, Bool.false_eq_true, if_false]
  rw [hi.2.2.2]
  unfold specTrain
  rw [List.length_map, List.filter_eq_self.2]
  · simp [hi.1]
  · intro q _; simp [KeptBy, hu]

/-- **C32** for a whole run (initial training with a fresh regressor, then the loop) of the modelled regressor: it ends,
and the number of evaluations, which is the number of points stored, is at most
`max_total + n_points_per_acq - 1` (or the number of initial evaluations if this used up the budget). -/
theorem C32_whole_run {cfg : Cfg P PX Θ K} (hc : CfgOk cfg) (px : PX) (py : PreY K) (s : Noise K)
    {p nInitial maxInitial : ℕ} (hp : 0 < p) {verbose : ℤ} {draw : ℕ → ℕ → ℕ → P × Ext K}
    (hg : ∀ i r j, Good (draw i r j).2) {acc : List (P × Ext K)} {g : State P PX Θ K}
    (h : initialTraining cfg p nInitial maxInitial verbose draw (State.init px py s) = .ok (acc, g))
    (o : Opts) (mc : Bool) (truth : P → Ext K) (ht : ∀ x, Good (truth x))
    (cands : ℕ → State P PX Θ K → List P)
    (hcands : ∀ i g, ((cands i g).length : ℤ) ≤ o.nAcq) (fit : ℕ → FitArg) (conv diag : ℕ → State P PX Θ K → Bool) :
    ∃ r : St (State P PX Θ K) P × Exit,
      (∀ fuel, (o.maxTotal - acc.length).toNat * (o.nResamples.toNat + 2) + (o.nResamples.toNat + 2) < fuel →
        runLoop o mc (nTotal cfg) (fun g => g.yTrain.length)
          (fun i g => regressorStep cfg truth (cands i g) (fit i) (conv i g) (diag i g)) fuel g = some r) ∧
      (acc.length < o.maxTotal → (acc.length + r.1.evals.length : ℤ) ≤ o.maxTotal + o.nAcq - 1) ∧
      (o.maxTotal ≤ acc.length → r.1.evals = []) := by
  -- the state after the initial training
  have hI0 : Inv cfg g ∧ nTotal cfg g = g.yAll.length ∧ g.yAll.length = acc.length := by
    unfold initialTraining at h
    dsimp only at h
    split_ifs at h with hk hv
    · cases h
      refine ⟨inv_init cfg px py s, ?_, rfl⟩
      unfold nTotal; simp [State.init, Svm.init]
    · have hz : (State.init px py s : State P PX Θ K).xTrain.zip (State.init px py s : State P PX Θ K).yTrain = [] := rfl
      rw [hz] at h
      split at h
      · simp at h
      · rename_i acc' heq
        have hgood : ∀ q ∈ acc', Good q.2 := by
          have h3 : ∀ k n m acc' b, initRounds cfg p k n draw m 0 [] = (acc', b) → ∀ q ∈ acc', Good q.2 := by
            intro k n m acc' b e
            have := (initRounds_spec cfg p k n draw m 0 []).2.2 (fun q => Good q.2) (by simp) hg
            rw [e] at this
            exact this
          exact h3 _ _ _ _ _ heq
        split at h
        · simp at h
        · rename_i g' happ
          cases h
          have hgc : ∀ y ∈ (acc.map Prod.snd), Good y := by
            intro y hy
            rw [List.mem_map] at hy
            obtain ⟨q, hq, rfl⟩ := hy
            exact hgood q hq
          have hcall : ∀ y ∈ ({ batch := some (acc.map Prod.fst, acc.map Prod.snd) } : Call P K).ys, Good y := by
            simpa [Call.ys] using hgc
          have hi := inv_step hc (fun _ => hcall) (inv_init cfg px py s) happ
          have hd := append_data hc (st := State.init px py s) (by simpa [State.init] using fun _ => hcall) rfl happ
          refine ⟨hi, ?_, ?_⟩
          · cases hu : cfg.useSvm with
            | true => exact (C10_infinite_complement hc hu (inv_init cfg px py s) hcall (Or.inl rfl) happ).2.2
            | false => exact nTotal_of_noSvm hu hi
          · rw [hd.2.1]; simp [State.init, Call.ys]
  have := C32_terminates_within_budget (o := o) (mc := mc) (nT := nTotal cfg) (nF := fun g => g.yTrain.length)
    (steps := fun i g => regressorStep cfg truth (cands i g) (fit i) (conv i g) (diag i g))
    (fun st => Inv cfg st ∧ nTotal cfg st = st.yAll.length) hcands
    (by
      intro i g1 g2 ⟨hi, hn⟩ hf
      simp only [regressorStep] at hf
      split at hf
      · rename_i g' happ
        cases hf
        have hcall : ∀ y ∈ ({ batch := some (cands i g1, (cands i g1).map truth), fit := fit i } : Call P K).ys, Good y := by
          intro y hy
          simp only [Call.ys, Option.map_some, Option.getD_some, List.mem_map] at hy
          obtain ⟨x, -, rfl⟩ := hy
          exact ht x
        have hi' := inv_step hc (fun _ => hcall) hi happ
        have hd := append_data hc (by
          intro hu y hy
          rcases List.mem_append.1 hy with hy | hy
          · exact hi.2.1 hu y hy
          · exact hcall y hy) hi.1 happ
        have hnt : nTotal cfg g2 = g2.yAll.length := by
          cases hu : cfg.useSvm with
          | true => exact (C10_infinite_complement hc hu hi hcall (Or.inl rfl) happ).2.2
          | false => exact nTotal_of_noSvm hu hi'
        refine ⟨⟨hi', hnt⟩, ?_⟩
        rw [hnt, hn, hd.2.1]
        simp [Call.ys, regressorStep]
      · simp at hf)
    g ⟨hI0.1, hI0.2.1⟩
  rw [hI0.2.1, hI0.2.2] at this
  exact this

/-- C32: a whole run with two processes: 8 initial points, then 2 candidates per iteration until at least 11 points. -/
example : ((initialTraining (exCfg true) 2 3 6 3 exDraw ex0).toOption.bind fun q =>
    (runLoop ⟨3, 6, 11, 11, 2, 1, 1, 2⟩ true (nTotal (exCfg true)) (fun g => g.yTrain.length)
      (fun i _ => regressorStep (exCfg true) (fun x => if x % 2 = 0 then .fin x else .negInf) [1000 + i, 2000 + 2 * i]
        (.yes none) false false) 100 q.2).map fun r => (q.1.length, r.1.evals, r.2, r.1.gpr.yAll.length)) =
    some (8, [1000, 2000, 1001, 2002], .finished, 12) := by decide +kernel

end Init

example : checkConvergence [(.n, some true), (.s, some false), (.ns, some true), (.m, none)] = true :=
  (C34_policies _).mpr ⟨⟨(.n, some true), by simp, by decide⟩, by decide, fun _ => ⟨(.ns, some true), by simp, by decide⟩⟩

example : checkConvergence [(.s, some true), (.n, none)] = checkConvergence [(.n, none), (.s, some true)] :=
  C34_order_irrelevant (List.Perm.swap _ _ _)

example : checkConvergence ([(.s, some false), (.s, some true)] ++ [(.m, some false), (.m, none)]) = checkConvergence [(.s, some false), (.s, some true)] :=
  C34_monitors_irrelevant _ _ (by decide)

theorem exDraw_good : ∀ i r j, Gpr.Good (exDraw i r j).2 := fun i r j => by
  unfold exDraw
  dsimp only
  split_ifs
  · exact .inl rfl
  · exact .inr ⟨_, rfl⟩

/-- Two processes, three finite points asked for: no more than `(6 + 3 / 2) * 2 = 14` evaluations. -/
example : ∃ acc g, initialTraining (Gpr.exCfg true) 2 3 6 3 exDraw Gpr.ex0 = .ok (acc, g) ∧ 3 ≤ g.yTrain.length ∧ acc.length ≤ 14 := by
  rcases h : initialTraining (Gpr.exCfg true) 2 3 6 3 exDraw Gpr.ex0 with e | ⟨acc, g⟩
  · exact absurd (show (initialTraining (Gpr.exCfg true) 2 3 6 3 exDraw Gpr.ex0).isOk = true by decide +kernel)
      (by rw [h]; simp [Except.isOk, Except.toBool])
  · obtain ⟨h1, -, -, -, h2⟩ := C54_initial_training_partial (Gpr.exCfg_ok true) () (.aff 0 1) (.scalar 1) (by decide) (fun _ => exDraw_good) h
    exact ⟨acc, g, rfl, h1, by simpa using h2⟩

example : (initRounds (Gpr.exCfg true) 1 (Mpi.ceilDiv 3 1) 3 exDraw (Mpi.ceilDiv 6 (Mpi.ceilDiv 3 1)) 0 []).1.length ≤ 6 :=
  C54_budget_partial _ (by decide) (by decide) _

end GPry.Run
