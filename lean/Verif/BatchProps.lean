import Verif.Batch
import Verif.MpiProps
import Verif.SpmdLemmas
import Verif.CopyProps

set_option linter.all false

/-! # `BatchOptimizer` (C58, C85) -/

namespace GPry.Batch

open GPry Spmd

/-! ## Searching for the best -/

section Search
variable {K : Type} [LinearOrder K]

theorem lt_trans' {a b c : Ext K} (h1 : Ext.lt a b = false) (h2 : Ext.lt c b = true) (hc : a.isNan = false) : Ext.lt a c = false := by
  cases a <;> cases b <;> cases c <;> simp_all [Ext.lt, Ext.isNan]
  exact h2.le.trans h1

theorem argminGo_spec (l : List (Ext K)) (all : List (Ext K)) (hn : ∀ v ∈ all, v.isNan = false) :
    ∀ (pre : List (Ext K)) (b : ℕ) (bv : Ext K), all = pre ++ l → all[b]? = some bv →
      (∀ v ∈ pre, Ext.lt v bv = false) →
      ∃ v, all[argminGo pre.length b bv l]? = some v ∧ ∀ u ∈ all, Ext.lt u v = false := by
  induction l with
  | nil =>
    intro pre b bv h hb hp
    rw [List.append_nil] at h
    exact ⟨bv, hb, by rw [h]; exact hp⟩
  | cons a l ih =>
    intro pre b bv h hb hp
    have hsplit : all = (pre ++ [a]) ++ l := by rw [h]; simp
    have hlen : (pre ++ [a]).length = pre.length + 1 := by simp
    have ha : a ∈ all := by rw [h]; simp
    rw [argminGo]
    split
    · rename_i hlt
      rw [← hlen]
      apply ih (pre ++ [a]) pre.length a hsplit
      · rw [h, List.getElem?_append_right (le_refl _)]; simp
      · intro v hv
        rcases List.mem_append.1 hv with hv | hv
        · exact lt_trans' (hp v hv) hlt (hn v (by rw [h]; simp [hv]))
        · rw [List.mem_singleton.1 hv]; cases a <;> simp [Ext.lt]
    · rename_i hlt
      rw [← hlen]
      apply ih (pre ++ [a]) b bv hsplit hb
      intro v hv
      rcases List.mem_append.1 hv with hv | hv
      · exact hp v hv
      · rw [List.mem_singleton.1 hv]; simpa using hlt

/-- `np.argmin` without NaN's. -/
theorem argmin_spec (l : List (Ext K)) (hne : l ≠ []) (hn : ∀ v ∈ l, v.isNan = false) :
    ∃ k v, argmin l = some k ∧ l[k]? = some v ∧ ∀ u ∈ l, Ext.lt u v = false := by
  cases l with
  | nil => exact absurd rfl hne
  | cons a l =>
    have : (a :: l).findIdx? Ext.isNan = none := by
      rw [List.findIdx?_eq_none_iff]
      intro v hv; simpa using hn v hv
    obtain ⟨v, h1, h2⟩ := argminGo_spec (a :: l) (a :: l) hn [] 0 a rfl rfl (by simp)
    refine ⟨argminGo 0 0 a (a :: l), v, ?_, h1, h2⟩
    simp only [argmin, this]

theorem argminGo_lt (l : List (Ext K)) : ∀ (i b : ℕ) (bv : Ext K), b < i ∨ b = 0 ∧ i = 0 → argminGo i b bv l < i + l.length ∨ l = [] ∧ argminGo i b bv l = b := by
  induction l with
  | nil => intro i b bv h; right; exact ⟨rfl, rfl⟩
  | cons a l ih =>
    intro i b bv h
    left
    rw [argminGo]
    simp only [List.length_cons]
    split
    · rcases ih (i + 1) i a (by omega) with h | ⟨_, h⟩ <;> omega
    · rcases ih (i + 1) b bv (by omega) with h | ⟨_, h⟩ <;> omega

theorem argmin_lt (l : List (Ext K)) (k : ℕ) (h : argmin l = some k) : k < l.length := by
  cases l with
  | nil => cases h
  | cons a l =>
    simp only [argmin, Option.some.injEq] at h
    split at h
    · rename_i i hi
      rw [List.findIdx?_eq_some_iff_getElem] at hi
      obtain ⟨hl, _⟩ := hi
      omega
    · rcases argminGo_lt (a :: l) 0 0 a (Or.inr ⟨rfl, rfl⟩) with h' | ⟨h', _⟩
      · omega
      · cases h'

theorem pick_lt (l : List (Ext K)) (k : ℕ) (h : pick l = some k) : k < l.length := by
  unfold pick at h
  split at h
  · exact argmin_lt l k h
  · split at h
    · cases h
    · cases h; omega

/-- The position that `multi_add` picks, if no value is NaN or minus infinity (the acquisition function is never NaN or plus infinity). -/
theorem pick_best (l : List (Ext K)) (k : ℕ) (h : pick l = some k) (hn : ∀ v ∈ l, v.isNan = false ∧ v ≠ .negInf) (v : Ext K)
    (hv : l[k]? = some v) : ∀ u ∈ l, Ext.lt u v = false := by
  unfold pick at h
  split at h
  · rename_i hany
    have hne : l ≠ [] := by rintro rfl; simp at hany
    obtain ⟨k', v', h1, h2, h3⟩ := argmin_spec l hne fun v hv => (hn v hv).1
    rw [h] at h1
    cases h1
    rw [hv] at h2
    cases h2
    exact h3
  · rename_i hany
    intro u hu
    have hu2 : u.isFinite = false := by
      by_contra hc
      apply hany
      rw [List.any_eq_true]
      exact ⟨u, hu, by simpa using hc⟩
    obtain ⟨h1, h2⟩ := hn u hu
    cases u with
    | posInf => cases v <;> rfl
    | negInf => exact absurd rfl h2
    | fin a => cases hu2
    | nan => cases h1

/-- `multi_add` does not pick an acquisition value `-inf` if there is a number. -/
theorem pick_not_posInf (l : List (Ext K)) (k : ℕ) (h : pick l = some k) (hf : ∃ u ∈ l, u.isFinite = true) (v : Ext K)
    (hv : l[k]? = some v) : v ≠ .posInf := by
  obtain ⟨u, hu, huf⟩ := hf
  unfold pick at h
  rw [if_pos (List.any_eq_true.2 ⟨u, hu, huf⟩)] at h
  have hne : l ≠ [] := by rintro rfl; cases hu
  by_cases hn : ∀ w ∈ l, w.isNan = false
  · obtain ⟨k', v', h1, h2, h3⟩ := argmin_spec l hne hn
    rw [h] at h1
    cases h1
    rw [hv] at h2
    cases h2
    rintro rfl
    have := h3 u hu
    cases u with
    | fin a => cases this
    | posInf => cases huf
    | negInf => cases huf
    | nan => cases huf
  · match l, h, hn with
    | a :: l, h, hn =>
      unfold argmin at h
      cases hx : (a :: l).findIdx? Ext.isNan with
      | none =>
        rw [List.findIdx?_eq_none_iff] at hx
        exact absurd (fun w hw => by simpa using hx w hw) hn
      | some i =>
        dsimp only at h
        rw [hx] at h
        cases h
        rw [List.findIdx?_eq_some_iff_getElem] at hx
        obtain ⟨hl, hi, _⟩ := hx
        rw [List.getElem?_eq_getElem hl] at hv
        cases hv
        intro hc
        rw [hc] at hi
        cases hi

/-- With NaN's the first NaN is taken, however good the others are. -/
theorem pick_nan (a b : K) : pick [.fin a, .nan, .fin b] = some 1 := by
  simp [pick, Ext.isFinite, argmin, List.findIdx?_cons, Ext.isNan]

end Search

/-! ## Restarts -/

section Restarts
variable {G P B K : Type} [LinearOrder K] [Neg K]

/-- The objective function stored is the one of `g`, or none. -/
theorem optimise_obj (e : Env G P B K) (g : G) (obj : Option G) (h : obj = none ∨ obj = some g) (i : ℕ) (b : Option B) (props : List P) :
    optimise e obj g i b props = (some g, (optimise e none g i b props).2) := by
  rcases h with rfl | rfl <;> rfl

/-- The restarts of one process: all of them optimise the acquisition function of the present surrogate. -/
theorem rankLoop_iff (e : Env G P B K) (g : G) (b : B) (props : ℕ → List P) (is : List ℕ) : ∀ (obj : Option G), (obj = none ∨ obj = some g) → ∀ qs,
    ((rankLoop e g b props obj is).2 = .ok qs ↔ List.Forall₂ (fun i q => (optimise e none g i (some b) (props i)).2 = .ok q) is qs) := by
  induction is with
  | nil =>
    intro obj h qs
    simp only [rankLoop, List.forall₂_nil_left_iff]
    constructor
    · intro h; cases h; rfl
    · rintro rfl; rfl
  | cons i is ih =>
    intro obj h qs
    rw [rankLoop, optimise_obj e g obj h i]
    cases ho : (optimise e none g i (some b) (props i)).2 with
    | error err =>
      dsimp only
      constructor
      · intro h; cases h
      · intro h; cases h with | cons h1 h2 => rw [ho] at h1; cases h1
    | ok q =>
      dsimp only
      have hi := ih (some g) (Or.inr rfl)
      cases hr : rankLoop e g b props (some g) is with
      | mk o2 r2 =>
        rw [hr] at hi
        cases r2 with
        | error err =>
          dsimp only
          constructor
          · intro h; cases h
          · intro h
            cases h with
            | cons h1 h2 => have := (hi _).2 h2; cases this
        | ok qs2 =>
          dsimp only
          constructor
          · intro h
            cases h
            exact .cons ho ((hi qs2).1 rfl)
          · intro h
            cases h with
            | cons h1 h2 =>
              rw [ho] at h1
              cases h1
              have := (hi _).2 h2
              cases this
              rfl

theorem forall₂_flatten {α β : Type} (R : α → β → Prop) : ∀ (ls : List (List α)) (qs : List β), List.Forall₂ R ls.flatten qs →
    ∃ qss : List (List β), qss.flatten = qs ∧ List.Forall₂ (List.Forall₂ R) ls qss
  | [], qs, h => by
    simp only [List.flatten_nil, List.forall₂_nil_left_iff] at h
    exact ⟨[], by rw [h]; rfl, .nil⟩
  | l :: ls, qs, h => by
    rw [List.flatten_cons] at h
    have h1 := (List.forall₂_take_append qs l ls.flatten h.flip).flip
    have h2 := (List.forall₂_drop_append qs l ls.flatten h.flip).flip
    obtain ⟨qss, e1, e2⟩ := forall₂_flatten R ls _ h2
    refine ⟨qs.take l.length :: qss, ?_, .cons h1 e2⟩
    rw [List.flatten_cons, e1, List.take_append_drop]

theorem take_drop_range (i n m : ℕ) (h : i + n ≤ m) : ((List.range m).drop i).take n = (List.range n).map fun j => j + i := by
  apply List.ext_getElem
  · simp; omega
  · intro j h1 h2
    simp at h1 h2 ⊢
    omega

theorem sum_take_le (l : List ℕ) (r : ℕ) : (l.take r).sum + l.getD r 0 ≤ l.sum := by
  induction l generalizing r with
  | nil => simp
  | cons a l ih =>
    cases r with
    | zero => simp
    | succ r => have := ih r; simp at this ⊢; omega

/-- All the restarts, each in exactly one process, in order. -/
theorem flatten_myRestarts (p n : ℕ) (hp : 0 < p) : ((List.range p).map fun r => myRestarts p r n).flatten = List.range n := by
  have h : ∀ r, myRestarts p r n = Mpi.evalChunk p r (List.range n) := by
    intro r
    unfold myRestarts Mpi.evalChunk
    simp only [List.length_range]
    rw [take_drop_range]
    have h1 := sum_take_le (Mpi.splitNumber n p) r
    have h2 := (Mpi.C01_split_number_balanced n p hp).2.1
    omega
  simp only [h]
  exact Mpi.flatten_evalChunk p hp (List.range n)

end Restarts

/-! ## C58 -/

section Par
variable {S P B K : Type} [LinearOrder K] [Neg K]

theorem ranks_of_serial (c : Cfg S P B K) (s : S) (b : B) (props : ℕ → List P) (p : ℕ) (hp : 0 < p) (cands : List (P × Ext K))
    (h : (rankLoop c.env s b props none (List.range c.nRestarts)).2 = .ok cands) :
    ∃ mine : Fin p → List (P × Ext K), (List.ofFn mine).flatten = cands ∧
      ∀ r, (rankLoop c.env s b props none (myRestarts p r.val c.nRestarts)).2 = .ok (mine r) := by
  rw [rankLoop_iff c.env s b props _ none (Or.inl rfl), ← flatten_myRestarts p c.nRestarts hp] at h
  obtain ⟨qss, h1, h2⟩ := forall₂_flatten _ _ _ h
  have hlen : qss.length = p := by have := h2.length_eq; simpa using this.symm
  subst hlen
  refine ⟨fun r => qss[r.val], ?_, ?_⟩
  · rw [List.ofFn_getElem]; exact h1
  · intro r
    rw [rankLoop_iff c.env s b props _ none (Or.inl rfl)]
    have := (List.forall₂_iff_get.1 h2).2 r.val (by simp) r.isLt
    simpa using this

theorem par_runs (c : Cfg S P B K) (b : B) (n p : ℕ) (hp : 0 < p) : ∀ (k : ℕ) (s s' : S) (outs acc : List (Out P K)) (accs : Fin p → List (Out P K)),
    accs ⟨0, hp⟩ = acc → serial c b n k s = .ok (s', outs) →
    Runs (fun r : Fin p => par c b n p r.val k s (accs r)) fun _ => .ok (acc ++ outs)
  | 0, s, s', outs, acc, accs, h0, h => by
    cases h
    subst h0
    rw [List.append_nil]
    exact .single (Step.bcast ⟨0, hp⟩ accs fun _ => Prog.ret)
  | k + 1, s, s', outs, acc, accs, h0, h => by
    rw [serial] at h
    cases hc : (rankLoop c.env s b (c.props (n - (k + 1))) none (List.range c.nRestarts)).2 with
    | error e => rw [hc] at h; cases h
    | ok cands =>
      rw [hc] at h
      dsimp only at h
      cases hch : choose c (k == 0) s cands with
      | error e => rw [hch] at h; cases h
      | ok so =>
        obtain ⟨s1, out⟩ := so
        rw [hch] at h
        dsimp only at h
        cases hs : serial c b n k s1 with
        | error e => rw [hs] at h; cases h
        | ok q =>
          obtain ⟨s2, outs2⟩ := q
          rw [hs] at h
          cases h
          obtain ⟨mine, hm, hr⟩ := ranks_of_serial c s b (c.props (n - (k + 1))) p hp cands hc
          let K1 : Fin p → Option (List (List (P × Ext K))) → Prog Err (List (Out P K)) := fun r => fun
            | some all =>
              match choose c (k == 0) s all.flatten with
              | .error e => .raise e
              | .ok (s', out) => .bcast 0 (some s') fun
                | some s'' => par c b n p r.val k s'' (accs r ++ [out])
                | none => .raise .typeError
            | none => .bcast 0 (none : Option S) fun
              | some s'' => par c b n p r.val k s'' (accs r)
              | none => .raise .typeError
          have e1 : (fun r : Fin p => par c b n p r.val (k + 1) s (accs r)) = fun r => .gather (mine r) (K1 r) := by
            funext r
            rw [par, hr r]
            rfl
          let accs' : Fin p → List (Out P K) := fun r => if r.val = 0 then accs r ++ [out] else accs r
          let K2 : Fin p → Option S → Prog Err (List (Out P K)) := fun r => fun
            | some s'' => par c b n p r.val k s'' (accs' r)
            | none => .raise .typeError
          have e2 : (fun r : Fin p => K1 r (if r.val = 0 then some (List.ofFn mine) else none)) =
              fun r : Fin p => .bcast 0 (if r.val = 0 then some s1 else none) (K2 r) := by
            funext r
            by_cases h0' : r.val = 0
            · simp only [h0', if_true, K1, hm, hch, K2, accs']
            · simp only [h0', if_false, K1, K2, accs']
          rw [e1]
          refine .head (Step.gather mine K1) ?_
          rw [e2]
          refine .head (Step.bcast ⟨0, hp⟩ (fun r : Fin p => if r.val = 0 then some s1 else none) K2) ?_
          simp only [if_true]
          have ih := par_runs c b n p hp k s1 s' outs2 (acc ++ [out]) accs' (by simp [accs', h0]) hs
          rw [List.append_assoc] at ih
          exact ih

/-- **C58**: with any number of processes, `multi_add` ends in all of them, with the result of a single process. -/
theorem C58_parallel (c : Cfg S P B K) (bounds : Option B) (n : ℤ) (copy s' : S) (outs : List (Out P K)) (p : ℕ) (hp : 0 < p)
    (h : multiAdd c bounds n copy = .ok (s', outs)) :
    Runs (fun r : Fin p => multiAddPar c bounds n copy p r.val) fun _ => .ok outs := by
  unfold multiAdd at h
  split at h
  · cases h
  rename_i hn
  have e : (fun r : Fin p => multiAddPar c bounds n copy p r.val) =
      fun r : Fin p => .bcast 0 (if r.val = 0 then some copy else none) fun
        | some s => par c (bounds.getD c.env.prior) n.toNat p r.val n.toNat s []
        | none => .raise .typeError := by
    funext r
    rw [multiAddPar, if_neg hn]
    rfl
  rw [e]
  refine .head (Step.bcast ⟨0, hp⟩ (fun r : Fin p => if r.val = 0 then some copy else none) _) ?_
  simp only [if_true]
  exact par_runs c _ _ p hp n.toNat copy s' outs [] (fun _ => []) rfl h

/-- Not positive: the same exception in all the processes. -/
theorem C58_refused (c : Cfg S P B K) (bounds : Option B) (n : ℤ) (copy : S) (p : ℕ) (hn : n ≤ 0) :
    multiAdd c bounds n copy = .error .valueError ∧
    Runs (fun r : Fin p => multiAddPar c bounds n copy p r.val) fun _ => .error .valueError := by
  refine ⟨by unfold multiAdd; rw [if_pos hn], ?_⟩
  have : (fun r : Fin p => multiAddPar c bounds n copy p r.val) = fun _ => .raise .valueError := by
    funext r; rw [multiAddPar, if_pos hn]
  rw [this]
  exact Runs.raise _

/-- **C58** is false for `n_restarts_optimizer = 0` (documented to mean one run): a single process raises, and several never end. -/
theorem C58_zero_restarts_counterexample (c : Cfg S P B K) (hz : c.nRestarts = 0) (bounds : Option B) (n : ℤ) (hn : 0 < n) (copy : S) (p : ℕ) (hp : 2 ≤ p) :
    multiAdd c bounds n copy = .error .indexError ∧ Deadlocks (fun r : Fin p => multiAddPar c bounds n copy p r.val) := by
  obtain ⟨k, hk⟩ : ∃ k, n.toNat = k + 1 := ⟨n.toNat - 1, by omega⟩
  constructor
  · unfold multiAdd
    rw [if_neg (by omega), hk, serial, hz]
    rfl
  · have hp0 : 0 < p := by omega
    have e : (fun r : Fin p => multiAddPar c bounds n copy p r.val) =
        fun r : Fin p => .bcast 0 (if r.val = 0 then some copy else none) fun
          | some s => par c (bounds.getD c.env.prior) n.toNat p r.val n.toNat s []
          | none => .raise .typeError := by
      funext r
      rw [multiAddPar, if_neg (by omega)]
      rfl
    have hm : ∀ r : Fin p, myRestarts p r.val 0 = [] := by
      intro r
      have h := flatten_myRestarts p 0 hp0
      rw [List.range_zero, List.flatten_eq_nil_iff] at h
      exact h _ (List.mem_map.2 ⟨r.val, by simp, rfl⟩)
    refine .of_reach (.head (by rw [e]; exact Step.bcast ⟨0, hp0⟩ (fun r : Fin p => if r.val = 0 then some copy else none) _) .refl) ?_
    simp only [if_true]
    rw [hk]
    have e1 : (fun r : Fin p => par c (bounds.getD c.env.prior) (k + 1) p r.val (k + 1) copy []) =
        fun r : Fin p => .gather ([] : List (P × Ext K)) fun
          | some all =>
            match choose c (k == 0) copy all.flatten with
            | .error e => .raise e
            | .ok (s', out) => .bcast 0 (some s') fun
              | some s'' => par c (bounds.getD c.env.prior) (k + 1) p r.val k s'' ([] ++ [out])
              | none => .raise .typeError
          | none => .bcast 0 (none : Option S) fun
            | some s'' => par c (bounds.getD c.env.prior) (k + 1) p r.val k s'' []
            | none => .raise .typeError := by
      funext r
      rw [par, hz, hm r]
      rfl
    rw [e1]
    refine .of_reach (.single (Step.gather (fun _ : Fin p => ([] : List (P × Ext K))) _)) ?_
    apply deadlocks_of_ended ⟨0, hp0⟩ ⟨1, by omega⟩ (.error .indexError)
    · have hfl : (List.ofFn fun _ : Fin p => ([] : List (P × Ext K))).flatten = [] := by simp
      simp only [if_true, hfl]
      rfl
    · intro y
      simp only [one_ne_zero, if_false]
      cases y <;> simp [Prog.fin]

/-! ## What is in a batch -/

/-- One point of the batch: `s` the copy at that time, `i` the number of the point. -/
structure Good (c : Cfg S P B K) (b : B) (i : ℕ) (s : S) (o : Out P K) (cands : List (P × Ext K)) : Prop where
  /-- the candidates are the results of all the restarts, each with the acquisition function of the present copy -/
  restarts : List.Forall₂ (fun j q => (optimise c.env none s j (some b) (c.props i j)).2 = .ok q) (List.range c.nRestarts) cands
  /-- one of them is returned, with minus its value -/
  mem : ∃ v, (o.1, v) ∈ cands ∧ o.2.2 = v.neg ∧
    ((∀ q ∈ cands, q.2.isNan = false ∧ q.2 ≠ .negInf) → ∀ q ∈ cands, Ext.lt q.2 v = false) ∧
    -- it is not one of those with acquisition value minus infinity if there is another one with a number
    ((∃ q ∈ cands, q.2.isFinite = true) → v ≠ .posInf)
  lie : o.2.1 = c.predict s o.1

theorem choose_good (c : Cfg S P B K) (b : B) (i : ℕ) (last : Bool) (s s' : S) (cands : List (P × Ext K)) (o : Out P K)
    (hr : List.Forall₂ (fun j q => (optimise c.env none s j (some b) (c.props i j)).2 = .ok q) (List.range c.nRestarts) cands)
    (h : choose c last s cands = .ok (s', o)) :
    Good c b i s o cands ∧ (last = true → s' = s) ∧ (last = false → c.append s o.1 o.2.1 = .ok s') := by
  unfold choose at h
  cases hp : pick (cands.map Prod.snd) with
  | none => rw [hp] at h; cases h
  | some k =>
    rw [hp] at h
    dsimp only at h
    cases hk : cands[k]? with
    | none => rw [hk] at h; cases h
    | some q =>
      obtain ⟨x, v⟩ := q
      rw [hk] at h
      dsimp only at h
      split at h
      · cases h
      · rename_i s1 hs1
        cases h
        refine ⟨⟨hr, ⟨v, List.mem_of_getElem? hk, rfl, ?_, ?_⟩, rfl⟩, ?_, ?_⟩
        · intro hn q hq
          apply pick_best (cands.map Prod.snd) k hp _ v (by rw [List.getElem?_map, hk]; rfl) q.2 (List.mem_map_of_mem hq)
          intro u hu
          obtain ⟨q', hq', rfl⟩ := List.mem_map.1 hu
          exact hn q' hq'
        · rintro ⟨q, hq, hf⟩
          exact pick_not_posInf (cands.map Prod.snd) k hp ⟨q.2, List.mem_map_of_mem hq, hf⟩ v (by rw [List.getElem?_map, hk]; rfl)
        · intro hl; rw [hl] at hs1; simpa using hs1.symm
        · intro hl; rw [hl] at hs1; simpa using hs1

theorem serial_good (c : Cfg S P B K) (b : B) (n : ℕ) : ∀ (k : ℕ) (s s' : S) (outs : List (Out P K)), k ≤ n → serial c b n k s = .ok (s', outs) →
    outs.length = k ∧ ∃ ss : ℕ → S, ss 0 = s ∧ ∀ (i : ℕ) (hi : i < outs.length),
      (∃ cands, Good c b (n - k + i) (ss i) outs[i] cands) ∧ (i + 1 < outs.length → c.append (ss i) outs[i].1 outs[i].2.1 = .ok (ss (i + 1)))
  | 0, s, s', outs, hk, h => by
    cases h
    exact ⟨rfl, fun _ => s, rfl, fun i hi => absurd hi (Nat.not_lt_zero _)⟩
  | k + 1, s, s', outs, hk, h => by
    rw [serial] at h
    cases hc : (rankLoop c.env s b (c.props (n - (k + 1))) none (List.range c.nRestarts)).2 with
    | error e => rw [hc] at h; cases h
    | ok cands =>
      rw [hc] at h
      dsimp only at h
      cases hch : choose c (k == 0) s cands with
      | error e => rw [hch] at h; cases h
      | ok so =>
        obtain ⟨s1, out⟩ := so
        rw [hch] at h
        dsimp only at h
        cases hs : serial c b n k s1 with
        | error e => rw [hs] at h; cases h
        | ok q =>
          obtain ⟨s2, outs2⟩ := q
          rw [hs] at h
          cases h
          rw [rankLoop_iff c.env s b _ _ none (Or.inl rfl)] at hc
          obtain ⟨hg, hl1, hl2⟩ := choose_good c b (n - (k + 1)) _ s s1 cands out hc hch
          obtain ⟨hlen, ss, hss, hI⟩ := serial_good c b n k s1 s' outs2 (by omega) hs
          refine ⟨by simp [hlen], fun i => match i with | 0 => s | i + 1 => ss i, rfl, ?_⟩
          intro i hi
          cases i with
          | zero =>
            refine ⟨⟨cands, by simpa using hg⟩, ?_⟩
            intro h1
            simp only [List.length_cons] at h1
            simp only [List.getElem_cons_zero, hss]
            apply hl2
            simp
            omega
          | succ i =>
            simp only [List.length_cons] at hi
            obtain ⟨⟨cd, h1⟩, h2⟩ := hI i (by omega)
            refine ⟨⟨cd, ?_⟩, ?_⟩
            · have : n - (k + 1) + (i + 1) = n - k + i := by omega
              rw [this]
              simpa using h1
            · intro h3
              simp only [List.length_cons] at h3
              simpa using h2 (by omega)

/-- **C58** (partial: the value of the acquisition function is never NaN or plus infinity at the end of a restart): the batch has `n_points`
points; each is the result of one of the restarts done with the copy to which the previous points have been appended with their
predicted values, and none of the restarts gave a better value of the acquisition function; the values returned are the prediction
and the acquisition function. -/
theorem C58_batch_partial (c : Cfg S P B K) (bounds : Option B) (n : ℤ) (copy s' : S) (outs : List (Out P K))
    (h : multiAdd c bounds n copy = .ok (s', outs)) :
    (outs.length : ℤ) = n ∧ ∃ ss : ℕ → S, ss 0 = copy ∧ ∀ (i : ℕ) (hi : i < outs.length),
      (∃ cands, Good c (bounds.getD c.env.prior) i (ss i) outs[i] cands) ∧
      (i + 1 < outs.length → c.append (ss i) outs[i].1 outs[i].2.1 = .ok (ss (i + 1))) := by
  unfold multiAdd at h
  split at h
  · cases h
  rename_i hn
  obtain ⟨h1, ss, h2, h3⟩ := serial_good c _ n.toNat n.toNat copy s' outs (le_refl _) h
  refine ⟨by omega, ss, h2, ?_⟩
  intro i hi
  obtain ⟨⟨cd, a⟩, b⟩ := h3 i hi
  exact ⟨⟨cd, by simpa using a⟩, b⟩

/-- The point found by a restart is within the bounds, if the local optimiser stays within them and so do the proposals. -/
theorem optimise_inside (e : Env S P B K) (s : S) (i : ℕ) (b : B) (props : List P) (q : P × Ext K)
    (hloc : ∀ s x, e.isIn b x = true → e.isIn b (e.loc s x b).1 = true) (hprop : ∀ x ∈ props, e.isIn b x = true)
    (h : (optimise e none s i (some b) props).2 = .ok q) : e.isIn b q.1 = true := by
  have hpr : ∀ (ps : List P) (acc : List (P × Ext K)), (∀ x ∈ ps, e.isIn b x = true) → (∀ q ∈ acc, e.isIn b q.1 = true) →
      ∀ q ∈ propose (e.acq s) e.nRep ps acc, e.isIn b q.1 = true := by
    intro ps
    induction ps with
    | nil => intro acc _ h; exact h
    | cons x ps ih =>
      intro acc h1 h2
      rw [propose]
      have h1' : ∀ x ∈ ps, e.isIn b x = true := fun y hy => h1 y (by simp [hy])
      have h2' : ∀ q ∈ acc ++ [(x, e.acq s x)], e.isIn b q.1 = true := by
        intro q hq
        rcases List.mem_append.1 hq with hq | hq
        · exact h2 q hq
        · rw [List.mem_singleton.1 hq]; exact h1 x (by simp)
      split
      · exact ih acc h1' h2
      · dsimp only
        split
        · exact h2'
        · exact ih _ h1' h2'
  unfold optimise at h
  simp only [Option.getD_none, Option.getD_some] at h
  split at h
  · split at h
    · cases h
    · rename_i x0 hx0
      cases h
      exact hloc s x0 (List.find?_some hx0)
  · split at h
    · split at h
      · rename_i q' hq'
        cases h
        exact hloc s _ (hpr props [] hprop (by simp) q' (List.mem_of_getElem? hq'))
      · cases h
    · split at h
      · rename_i x hx
        cases h
        exact hprop x (List.mem_of_getLast? hx)
      · cases h

/-- **C58**: all the points of the batch are within the bounds, if local optimiser and proposals are. -/
theorem C58_inside (c : Cfg S P B K) (bounds : Option B) (n : ℤ) (copy s' : S) (outs : List (Out P K))
    (hloc : ∀ s x, c.env.isIn (bounds.getD c.env.prior) x = true →
      c.env.isIn (bounds.getD c.env.prior) (c.env.loc s x (bounds.getD c.env.prior)).1 = true)
    (hprop : ∀ i j, ∀ x ∈ c.props i j, c.env.isIn (bounds.getD c.env.prior) x = true)
    (h : multiAdd c bounds n copy = .ok (s', outs)) : ∀ o ∈ outs, c.env.isIn (bounds.getD c.env.prior) o.1 = true := by
  obtain ⟨_, ss, _, hI⟩ := C58_batch_partial c bounds n copy s' outs h
  intro o ho
  obtain ⟨i, hi, rfl⟩ := List.getElem_of_mem ho
  obtain ⟨⟨cands, hg⟩, _⟩ := hI i hi
  obtain ⟨v, hv, _⟩ := hg.mem
  obtain ⟨k, hk, hkv⟩ := List.getElem_of_mem hv
  have hk' : k < (List.range c.nRestarts).length := by rw [hg.restarts.length_eq]; exact hk
  have := (List.forall₂_iff_get.1 hg.restarts).2 k hk' hk
  rw [List.get_eq_getElem, List.get_eq_getElem, hkv] at this
  exact optimise_inside c.env (ss i) _ _ _ _ hloc (hprop i _) this

/-- Two restarts, one of which ends with NaN. -/
def nanCfg : Cfg Unit ℕ Unit ℤ :=
  { env :=
      { isIn := fun _ _ => true, train := fun _ => [5], acq := fun _ _ => .fin 1,
        loc := fun _ x _ => if x = 5 then (5, .fin (-1)) else (7, .nan), prior := (), nRep := 0 },
    nRestarts := 2, props := fun _ _ => [3], predict := fun _ _ => .fin 0, append := fun s _ _ => .ok s }

/-- **C58** is false with NaN's: the candidate with NaN is returned, though another restart found the value 1. -/
theorem C58_nan_counterexample :
    multiAdd nanCfg none 1 () = .ok ((), [(7, .fin 0, .nan)]) ∧
    (optimise nanCfg.env none () 0 (some ()) (nanCfg.props 0 0)).2 = .ok (5, .fin (-1)) := by
  decide

end Par

/-! ## The surrogate passed in -/

section Surrogate
variable {P PX Θ K B B' : Type} [Field K] [LinearOrder K]

open Copy

theorem lieCall_quiet (cfg : Gpr.Cfg P PX Θ K) (st : Gpr.State P PX Θ K) (x : P) (lie : Ext K) : Quiet cfg (lieCall st x lie) :=
  Or.inl ⟨rfl, rfl⟩

theorem appendLie_orig (cfg : Gpr.Cfg P PX Θ K) (region : Option (List P → List (Ext K) → B)) (w w' : Pair P PX Θ K B) (x : P) (lie : Ext K)
    (hx : w.orig.st.px = w.copy.st.px) (hy : w.orig.st.py = w.copy.st.py) (h : appendLie cfg region w x lie = .ok w') :
    w'.orig = w.orig ∧ w'.orig.st.px = w'.copy.st.px ∧ w'.orig.st.py = w'.copy.st.py := by
  unfold appendLie at h
  split at h
  · cases h
  · cases h
    have hq := lieCall_quiet cfg w.copy.st x lie
    obtain ⟨e1, e2⟩ := obj_append_pre cfg region w.copy _ hq
    have hw : w.append cfg region true (lieCall w.copy.st x lie) = ⟨w.orig, (w.copy.append cfg region (lieCall w.copy.st x lie)).1⟩ := by
      simp only [Pair.append, if_true]
      rw [share_eq (e1.trans hx.symm) (e2.trans hy.symm)]
    rw [hw]
    exact ⟨rfl, hx.trans e1.symm, hy.trans e2.symm⟩

/-- **C58**: in the end the surrogate passed to `multi_add` is what it was (but for the counter of evaluations, not modelled), though the
lies have been appended to a copy that shares its preprocessors. -/
theorem C58_surrogate (cfg : Gpr.Cfg P PX Θ K) (region : Option (List P → List (Ext K) → B)) (c : Cfg (Pair P PX Θ K B) P B' K)
    (hc : c.append = appendLie cfg region) (bounds : Option B') (n : ℤ) (o : Obj P PX Θ K B) (w' : Pair P PX Θ K B) (outs : List (Out P K))
    (h : multiAdd c bounds n ⟨o, o.deepcopy⟩ = .ok (w', outs)) : w'.orig = o := by
  have key : ∀ (b : B') (n k : ℕ) (w w' : Pair P PX Θ K B) (outs : List (Out P K)), w.orig.st.px = w.copy.st.px → w.orig.st.py = w.copy.st.py →
      serial c b n k w = .ok (w', outs) → w'.orig = w.orig := by
    intro b n k
    induction k with
    | zero => intro w w' outs _ _ h; cases h; rfl
    | succ k ih =>
      intro w w' outs hx hy h
      rw [serial] at h
      cases hc' : (rankLoop c.env w b (c.props (n - (k + 1))) none (List.range c.nRestarts)).2 with
      | error e => rw [hc'] at h; cases h
      | ok cands =>
        rw [hc'] at h
        dsimp only at h
        cases hch : choose c (k == 0) w cands with
        | error e => rw [hch] at h; cases h
        | ok so =>
          obtain ⟨w1, out⟩ := so
          rw [hch] at h
          dsimp only at h
          cases hs : serial c b n k w1 with
          | error e => rw [hs] at h; cases h
          | ok q =>
            obtain ⟨w2, outs2⟩ := q
            rw [hs] at h
            cases h
            rw [rankLoop_iff c.env w b _ _ none (Or.inl rfl)] at hc'
            obtain ⟨_, hl1, hl2⟩ := choose_good c b (n - (k + 1)) _ w w1 cands out hc' hch
            have hw1 : w1.orig = w.orig ∧ w1.orig.st.px = w1.copy.st.px ∧ w1.orig.st.py = w1.copy.st.py := by
              cases hk : (k == 0) with
              | true => rw [hl1 hk]; exact ⟨rfl, hx, hy⟩
              | false =>
                have := hl2 hk
                rw [hc] at this
                exact appendLie_orig cfg region w w1 _ _ hx hy this
            rw [ih w1 w' outs2 hw1.2.1 hw1.2.2 hs, hw1.1]
  unfold multiAdd at h
  split at h
  · cases h
  · exact key _ _ _ _ _ _ rfl rfl h

end Surrogate

/-! ## C85 -/

section Public
variable {G P B K : Type} [LinearOrder K] [Neg K]

/-- **C85** is false without bounds (which should mean: within the prior): the first run raises `TypeError` for every surrogate with training points. -/
theorem C85_no_bounds_counterexample (e : Env G P B K) (obj : Option G) (g : G) (props : List P) (ht : e.train g ≠ []) :
    (optimise e obj g 0 none props).2 = .error .typeError := by
  unfold optimise
  simp [ht]

/-- **C85** is false when called again with another surrogate: the objective function of the first one is optimised. -/
theorem C85_stale_counterexample (e : Env G P B K) (g g' : G) (b : B) (props props' : List P) (x : P) (hx : (e.train g').reverse.find? (e.isIn b) = some x) :
    (optimise e (optimise e none g 0 (some b) props).1 g' 0 (some b) props').2 = .ok (e.loc g x b) := by
  unfold optimise
  simp [hx]

theorem propose_eq (acq : P → Ext K) (nRep : ℕ) (ps : List P) : ∀ acc : List (P × Ext K), acc.length ≤ nRep →
    propose acq nRep ps acc = acc ++ (((ps.filter fun x => (acq x).isFinite).take (nRep + 1 - acc.length)).map fun x => (x, acq x)) := by
  induction ps with
  | nil => intro acc h; simp [propose]
  | cons x ps ih =>
    intro acc h
    rw [propose]
    cases hf : (acq x).isFinite with
    | false => simp only [Bool.not_false, if_true]; rw [ih acc h]; simp [hf]
    | true =>
      simp only [Bool.not_true, Bool.false_eq_true, if_false, List.length_append, List.length_singleton]
      obtain ⟨m, hm⟩ : ∃ m, nRep + 1 - acc.length = m + 1 := ⟨nRep - acc.length, by omega⟩
      rw [hm]
      simp only [List.filter_cons, hf, if_true, List.take_succ_cons, List.map_cons]
      split
      · have : m = 0 := by omega
        subst this
        simp
      · rw [ih _ (by simp; omega)]
        have : nRep + 1 - (acc ++ [(x, acq x)]).length = m := by simp; omega
        rw [this]
        simp

theorem lt_neg_neg {K : Type} [Field K] [LinearOrder K] [IsStrictOrderedRing K] (a b : Ext K) : Ext.lt a.neg b.neg = Ext.lt b a := by
  cases a <;> cases b <;> simp [Ext.lt, Ext.neg]

/-- **C85** (partial: with bounds, and right after a call of `multi_add` or another with the same surrogate): the first run starts from the last
training point within the bounds; the others from the best of the first `n_repeats_propose + 1` proposals with a finite value
of the acquisition function; all optimise the acquisition function of the surrogate passed, within those bounds. -/
theorem C85_optimise_partial {K : Type} [Field K] [LinearOrder K] [IsStrictOrderedRing K] (e : Env G P B K) (g : G) (obj : Option G)
    (ho : obj = none ∨ obj = some g) (i : ℕ) (b : B) (props : List P)
    (q : P × Ext K) (h : (optimise e obj g i (some b) props).2 = .ok q) :
    (i = 0 → ∃ x rest, (e.train g).reverse = rest ++ x :: (e.train g).reverse.drop (rest.length + 1) ∧
      e.isIn b x = true ∧ (∀ y ∈ rest, e.isIn b y = false) ∧ q = e.loc g x b) ∧
    (i ≠ 0 → (∃ x ∈ props, (e.acq g x).isFinite = true) → ∃ x ∈ (props.filter fun x => (e.acq g x).isFinite).take (e.nRep + 1),
      q = e.loc g x b ∧ ∀ y ∈ (props.filter fun x => (e.acq g x).isFinite).take (e.nRep + 1), Ext.lt (e.acq g x) (e.acq g y) = false) ∧
    (i ≠ 0 → (∀ x ∈ props, (e.acq g x).isFinite = false) → ∃ x, props.getLast? = some x ∧ q = (x, (e.acq g x).neg)) := by
  rw [optimise_obj e g obj ho] at h
  unfold optimise at h
  simp only [Option.getD_none, Option.getD_some] at h
  have hpe : propose (e.acq g) e.nRep props [] =
      ((props.filter fun x => (e.acq g x).isFinite).take (e.nRep + 1)).map fun x => (x, e.acq g x) := by
    rw [propose_eq (e.acq g) e.nRep props [] (by simp)]; simp
  refine ⟨?_, ?_, ?_⟩
  · intro hi
    rw [if_pos hi] at h
    split at h
    · cases h
    · rename_i x hx
      cases h
      rw [List.find?_eq_some_iff_append] at hx
      obtain ⟨h1, rest, tl, h2, h3⟩ := hx
      refine ⟨x, rest, ?_, h1, fun y hy => by simpa using h3 y hy, rfl⟩
      rw [h2]
      simp
  · intro hi ⟨x1, hx1, hf1⟩
    rw [if_neg hi, hpe] at h
    obtain ⟨T, hT⟩ : ∃ T, T = (props.filter fun x => (e.acq g x).isFinite).take (e.nRep + 1) := ⟨_, rfl⟩
    rw [← hT] at h ⊢
    have hTf : ∀ x ∈ T, (e.acq g x).isFinite = true := by
      intro x hx
      rw [hT] at hx
      have := List.mem_of_mem_take hx
      simpa using (List.mem_filter.1 this).2
    have hTne : T ≠ [] := by
      intro he
      rw [he] at hT
      have : (props.filter fun x => (e.acq g x).isFinite) = [] := by
        by_contra hne
        have h1 : 0 < (props.filter fun x => (e.acq g x).isFinite).length := List.length_pos_iff.2 hne
        have h2 : ([] : List P).length = _ := congrArg List.length hT
        simp only [List.length_nil, List.length_take] at h2
        omega
      rw [List.filter_eq_nil_iff] at this
      exact this x1 hx1 hf1
    have hmm : (T.map fun x => (x, e.acq g x)).map Prod.snd = T.map fun x => e.acq g x := by rw [List.map_map]; rfl
    rw [hmm] at h
    obtain ⟨k, v, h1, h2, h3⟩ := argmin_spec ((T.map fun x => e.acq g x).map Ext.neg) (by simp [hTne]) (by
      intro v hv
      rw [List.map_map] at hv
      obtain ⟨x, hx, rfl⟩ := List.mem_map.1 hv
      have := hTf x hx
      simp only [Function.comp]
      cases ha : e.acq g x <;> simp_all [Ext.isFinite, Ext.neg, Ext.isNan])
    have h1' : argmax (T.map fun x => e.acq g x) = some k := h1
    rw [h1'] at h
    dsimp only at h
    rw [List.map_map, List.getElem?_map] at h2
    rw [List.getElem?_map] at h
    cases hk : T[k]? with
    | none => rw [hk] at h; cases h
    | some x =>
      rw [hk] at h h2
      simp at h h2
      refine ⟨x, List.mem_of_getElem? hk, h.symm, ?_⟩
      intro y hy
      have := h3 (e.acq g y).neg (List.mem_map.2 ⟨_, List.mem_map.2 ⟨y, hy, rfl⟩, rfl⟩)
      rw [← h2, lt_neg_neg] at this
      exact this
  · intro hi hx
    rw [if_neg hi, hpe] at h
    have : (props.filter fun x => (e.acq g x).isFinite) = [] := by
      rw [List.filter_eq_nil_iff]; intro x hx'; simp [hx x hx']
    rw [this] at h
    simp only [List.take_nil, List.map_nil, argmax, argmin] at h
    split at h
    · rename_i x hx
      cases h
      exact ⟨x, hx, rfl⟩
    · cases h

end Public

/-- A surrogate with two training points (`Gpr.callA`), each restart ends in point 7 or 8. -/
def surCfg : Cfg (Copy.Pair ℕ Unit ℕ ℚ Unit) ℕ Unit ℚ :=
  { env :=
      { isIn := fun _ _ => true, train := fun w => w.copy.st.xTrain, acq := fun _ _ => .fin 1,
        loc := fun w _ _ => (if 7 ∈ w.copy.st.xTrain then 8 else 7, .fin (-1)), prior := (), nRep := 0 },
    nRestarts := 2, props := fun _ _ => [3], predict := fun _ _ => .fin 0, append := appendLie Gpr.exCfgY none }

def surStart : Copy.Obj ℕ Unit ℕ ℚ Unit := ⟨(Gpr.run Gpr.exCfgY Gpr.ex0 [Gpr.callA]).getD Gpr.ex0, 11 / 10, none⟩

example : (match multiAdd surCfg none 2 ⟨surStart, surStart.deepcopy⟩ with
    | .ok (w, outs) => decide (w.orig.st.xTrain = [1, 3] ∧ w.copy.st.xTrain = [1, 3, 7] ∧ outs.map (fun o => o.1) = [7, 8])
    | .error _ => false) = true := by
  decide +kernel

/-- An optimiser on integers: maximise minus the distance to 3 with steps of one. -/
def exEnv : Env (List ℤ) ℤ (ℤ × ℤ) ℤ :=
  { isIn := fun b x => decide (b.1 ≤ x ∧ x ≤ b.2), train := id, acq := fun g x => .fin (-|x - 3| - g.count x),
    loc := fun g x b => if decide (x < 3 ∧ x + 1 ≤ b.2) then (x + 1, .fin (|x + 1 - 3| + g.count (x + 1))) else (x, .fin (|x - 3| + g.count x)),
    prior := (-10, 10), nRep := 1 }

def exCfg : Cfg (List ℤ) ℤ (ℤ × ℤ) ℤ :=
  { env := exEnv, nRestarts := 3, props := fun i j => [2 * j, i - j, 7], predict := fun _ x => .fin x, append := fun g x _ => .ok (g ++ [x]) }

/-- Three points with three restarts. -/
example : multiAdd exCfg none 3 [0, 1, 20] = .ok ([0, 1, 20, 3, 3], [(3, .fin 3, .fin 0), (3, .fin 3, .fin (-1)), (4, .fin 4, .fin (-1))]) := by
  decide +kernel

/-! ## Each theorem applied to concrete data -/

theorem exAdd : multiAdd exCfg none 3 [0, 1, 20] = .ok ([0, 1, 20, 3, 3], [(3, .fin 3, .fin 0), (3, .fin 3, .fin (-1)), (4, .fin 4, .fin (-1))]) := by decide +kernel

example : Runs (fun r : Fin 4 => multiAddPar exCfg none 3 [0, 1, 20] 4 r.val) fun _ => .ok [(3, .fin 3, .fin 0), (3, .fin 3, .fin (-1)), (4, .fin 4, .fin (-1))] :=
  C58_parallel exCfg none 3 _ _ _ 4 (by norm_num) exAdd

example : multiAdd exCfg none (-1) [0, 1, 20] = .error .valueError := (C58_refused exCfg none (-1) [0, 1, 20] 2 (by norm_num)).1

example : ∃ ss : ℕ → List ℤ, ss 0 = [0, 1, 20] ∧ ss 1 = [0, 1, 20, 3] := by
  obtain ⟨-, ss, h0, H⟩ := C58_batch_partial exCfg none 3 _ _ _ exAdd
  refine ⟨ss, h0, ?_⟩
  have := (H 0 (by simp)).2 (by simp)
  rw [h0] at this
  exact (Except.ok.inj this).symm

example (s' : List ℤ) (outs : List (Out ℤ ℤ)) (h : multiAdd { exCfg with props := fun _ _ => [2, 0, 7] } none 3 [0, 1, 20] = .ok (s', outs)) :
    ∀ o ∈ outs, exEnv.isIn (-10, 10) o.1 = true :=
  C58_inside { exCfg with props := fun _ _ => [2, 0, 7] } none 3 [0, 1, 20] s' outs (by
    intro s x hx
    simp only [exCfg, exEnv, Option.getD_none, decide_eq_true_eq] at hx ⊢
    split <;> simp <;> omega) (by
    intro i j x hx
    simp only [List.mem_cons, List.not_mem_nil, or_false] at hx
    rcases hx with rfl | rfl | rfl <;> decide) h

/-- The restart number 1 starts from the best finite proposal. -/
def exEnvQ : Env (List ℤ) ℤ (ℤ × ℤ) ℚ :=
  { isIn := fun b x => decide (b.1 ≤ x ∧ x ≤ b.2), train := id, acq := fun _ x => if x = 9 then .negInf else .fin (-|(x : ℚ) - 3|),
    loc := fun _ x _ => (x, .fin |(x : ℚ) - 3|), prior := (-10, 10), nRep := 1 }

example : (optimise exEnvQ none [0, 20] 1 (some (-10, 10)) [9, 5, 4, 3]).2 = .ok (4, .fin 1) ∧
    ∃ x ∈ [5, 4], ((4, .fin 1) : ℤ × Ext ℚ) = exEnvQ.loc [0, 20] x (-10, 10) := by
  have h : (optimise exEnvQ none [0, 20] 1 (some (-10, 10)) [9, 5, 4, 3]).2 = .ok (4, .fin 1) := by decide +kernel
  refine ⟨h, ?_⟩
  obtain ⟨x, hx, hq, -⟩ := (C85_optimise_partial exEnvQ [0, 20] none (.inl rfl) 1 (-10, 10) [9, 5, 4, 3] _ h).2.1 (by norm_num) ⟨5, by simp, by decide +kernel⟩
  have e : ([9, 5, 4, 3].filter fun x => (exEnvQ.acq [0, 20] x).isFinite).take (exEnvQ.nRep + 1) = [5, 4] := by decide +kernel
  rw [e] at hx
  exact ⟨x, hx, hq⟩

example (w' : Copy.Pair ℕ Unit ℕ ℚ Unit) (outs : List (Out ℕ ℚ)) (h : multiAdd surCfg none 2 ⟨surStart, surStart.deepcopy⟩ = .ok (w', outs)) : w'.orig = surStart :=
  C58_surrogate _ _ surCfg rfl none 2 surStart w' outs h

end GPry.Batch
