import Verif.RunMsg
import Verif.RunProps2
import Verif.MpiProps

set_option linter.all false

/-!
# C159: what a run reports while it runs
-/

namespace GPry.Run

/-! ## The loop -/

/-- Number of iterations announced. -/
def banners (l : List Msg) : ℕ := l.countP fun | .iteration .. => true | _ => false

/-- Number of evaluations announced. -/
def evalsSaid : List Msg → ℕ
  | [] => 0
  | .evaluated n :: l => n + evalsSaid l
  | _ :: l => evalsSaid l

/-- Number of re-samplings announced since the last evaluation, `k` before the first message. -/
def retries : ℕ → List Msg → ℕ
  | k, [] => k
  | _, .evaluated _ :: l => retries 0 l
  | k, .resampling _ :: l => retries (k + 1) l
  | k, _ :: l => retries k l

theorem ceilQ_sub (a : ℤ) {b : ℤ} (hb : 0 < b) : ceilQ (a - b) b = ceilQ a b - 1 := by
  unfold ceilQ
  have : -(a - b) = -a + b * 1 := by ring
  rw [this, Int.add_mul_ediv_left _ _ hb.ne']; ring

theorem ceilQ_mono {a a' b : ℤ} (hb : 0 < b) (h : a ≤ a') : ceilQ a b ≤ ceilQ a' b := by
  unfold ceilQ
  have := Int.ediv_le_ediv hb (neg_le_neg h)
  omega

theorem ceilQ_nonpos {a b : ℤ} (hb : 0 < b) (h : a ≤ 0) : ceilQ a b ≤ 0 := by
  have := ceilQ_mono hb h
  simpa [ceilQ] using this

theorem ceilQ_pos {a b : ℤ} (hb : 0 < b) (h : 0 < a) : 0 < ceilQ a b := by
  unfold ceilQ
  have : (-a) / b < 0 := Int.ediv_neg_of_neg_of_pos (by omega) hb
  omega

/-- `ceilQ` is the usual ceiling. -/
theorem ceilQ_spec (a : ℤ) {b : ℤ} (hb : 0 < b) : a ≤ ceilQ a b * b ∧ (ceilQ a b - 1) * b < a := by
  unfold ceilQ
  have h1 := Int.ediv_mul_le (-a) hb.ne'
  have h2 := Int.lt_ediv_add_one_mul_self (-a) hb
  constructor <;> nlinarith

section Loop
variable {G X : Type*} {o : Opts} {mc dont : Bool} {nT nF : G → ℕ} {steps : ℕ → G → Step G X}

theorem iterMsgs_two (s : Step G X) (st : St G X) : ∃ m, iterMsgs o s st = [.proposed s.cands.length, m] ∧
    ((∃ k, m = .givingUp k) ∨ (∃ k, m = .resampling k) ∨ m = .evaluated s.cands.length) := by
  unfold iterMsgs
  split_ifs
  · exact ⟨_, rfl, .inl ⟨_, rfl⟩⟩
  · exact ⟨_, rfl, .inr (.inl ⟨_, rfl⟩)⟩
  · exact ⟨_, rfl, .inr (.inr rfl)⟩

/-- One iteration: its messages and how it goes on. -/
theorem loop_step (fuel : ℕ) (st : St G X)
    (hc : 0 < o.maxTotal - nT st.gpr ∧ 0 < o.maxFinite - nF st.gpr ∧ st.hasConverged = false) :
    let s := steps st.iter st.gpr
    -- gives up
    ((s.cands.length : ℤ) < max 1 (o.nAcq / 2) ∧ o.nResamples < (st.resamples + 1 : ℕ) ∧
      (∃ r, loop o mc nT nF steps (fuel + 1) st = some (r, .gaveUp) ∧ r.iter = st.iter + 1) ∧
      loopMsgs o mc dont nT nF steps (fuel + 1) st =
        [banner o dont nT nF st, .proposed s.cands.length, .givingUp st.resamples]) ∨
    -- samples again
    ((s.cands.length : ℤ) < max 1 (o.nAcq / 2) ∧ ((st.resamples + 1 : ℕ) : ℤ) ≤ o.nResamples ∧
      ∃ st', st'.gpr = st.gpr ∧ st'.iter = st.iter + 1 ∧ st'.resamples = st.resamples + 1 ∧
      loop o mc nT nF steps (fuel + 1) st = loop o mc nT nF steps fuel st' ∧
      loopMsgs o mc dont nT nF steps (fuel + 1) st =
        banner o dont nT nF st :: .proposed s.cands.length :: .resampling (o.nResamples - (st.resamples + 1 : ℕ)) ::
          loopMsgs o mc dont nT nF steps fuel st') ∨
    -- raises
    (max 1 (o.nAcq / 2) ≤ (s.cands.length : ℤ) ∧
      (∃ r x, loop o mc nT nF steps (fuel + 1) st = some (r, .raised x) ∧ r.iter = st.iter + 1) ∧
      loopMsgs o mc dont nT nF steps (fuel + 1) st =
        [banner o dont nT nF st, .proposed s.cands.length, .evaluated s.cands.length]) ∨
    -- evaluates
    (max 1 (o.nAcq / 2) ≤ (s.cands.length : ℤ) ∧ ∃ st', s.fit st.gpr = .ok st'.gpr ∧ st'.iter = st.iter + 1 ∧
      st'.resamples = 0 ∧ (s.conv = false → st'.hasConverged = false) ∧
      loop o mc nT nF steps (fuel + 1) st = loop o mc nT nF steps fuel st' ∧
      loopMsgs o mc dont nT nF steps (fuel + 1) st =
        banner o dont nT nF st :: .proposed s.cands.length :: .evaluated s.cands.length ::
          loopMsgs o mc dont nT nF steps fuel st') := by
  intro s
  rcases iterate_cases (o := o) (mc := mc) s st with ⟨h1, h2, h⟩ | ⟨h1, h2, h⟩ | ⟨_, h1, e, h2, h⟩ | ⟨_, h1, g, h2, hh⟩
  · refine .inl ⟨h1, h2, ⟨_, by simp only [loop]; rw [if_pos hc, h], rfl⟩, ?_⟩
    simp only [loopMsgs]; rw [if_pos hc, h]
    simp only [iterMsgs]; rw [if_pos h1, if_pos h2]; simp
    rfl
  · refine .inr (.inl ⟨h1, h2, { st with iter := st.iter + 1, resamples := st.resamples + 1, trace := .insufficient :: st.trace },
      rfl, rfl, rfl, ?_, ?_⟩)
    · simp only [loop]; rw [if_pos hc, h]
    · simp only [loopMsgs]; rw [if_pos hc, h]
      simp only [iterMsgs]; rw [if_pos h1, if_neg (not_lt.2 h2)]; simp
      rfl
  · refine .inr (.inr (.inl ⟨h1, ⟨_, _, by simp only [loop]; rw [if_pos hc, h], rfl⟩, ?_⟩))
    simp only [loopMsgs]; rw [if_pos hc, h]
    simp only [iterMsgs]; rw [if_neg (not_lt.2 h1)]; simp
    rfl
  · rcases hh with ⟨hcv, hm, h⟩ | ⟨hcv, hm, h⟩ | ⟨hcv, h⟩
    · refine .inr (.inr (.inr ⟨h1, ⟨g, s.diag, 0, st.iter + 1, .evaluated (st.iter + 1) s.cands.length true s.diag :: st.trace,
            st.evals ++ s.cands⟩, h2, rfl, rfl, ?_, ?_, ?_⟩))
      · intro h'; rw [hcv] at h'; cases h'
      · simp only [loop]; rw [if_pos hc, h]
      · simp only [loopMsgs]; rw [if_pos hc, h]
        simp only [iterMsgs]; rw [if_neg (not_lt.2 h1)]; simp
        rfl
    · refine .inr (.inr (.inl ⟨h1, ⟨_, _, by simp only [loop]; rw [if_pos hc, h], rfl⟩, ?_⟩))
      simp only [loopMsgs]; rw [if_pos hc, h]
      simp only [iterMsgs]; rw [if_neg (not_lt.2 h1)]; simp
      rfl
    · refine .inr (.inr (.inr ⟨h1, ⟨g, false, 0, st.iter + 1, .evaluated (st.iter + 1) s.cands.length false false :: st.trace,
            st.evals ++ s.cands⟩, h2, rfl, rfl, ?_, ?_, ?_⟩))
      · intro _; rfl
      · simp only [loop]; rw [if_pos hc, h]
      · simp only [loopMsgs]; rw [if_pos hc, h]
        simp only [iterMsgs]; rw [if_neg (not_lt.2 h1)]; simp
        rfl

theorem loop_end (fuel : ℕ) (st : St G X)
    (hc : ¬(0 < o.maxTotal - nT st.gpr ∧ 0 < o.maxFinite - nF st.gpr ∧ st.hasConverged = false)) :
    loop o mc nT nF steps (fuel + 1) st = some (st, .finished) ∧
    loopMsgs o mc dont nT nF steps (fuel + 1) st = [finalMsg o nT nF st] := by
  constructor
  · simp only [loop]; rw [if_neg hc]
  · simp only [loopMsgs]; rw [if_neg hc]

/-- What is true of the message `m` if the messages `pre` came before it and `post` afterwards. -/
def Says (o : Opts) (t0 it0 k0 : ℕ) (pre : List Msg) (m : Msg) (post : List Msg) : Prop :=
  match m with
  | .iteration it _ left tot fin => it = it0 + 1 + banners pre ∧ tot = t0 + evalsSaid pre ∧
      (tot : ℤ) < o.maxTotal ∧ (fin : ℤ) < o.maxFinite ∧
      o.maxTotal - tot ≤ left * o.nAcq ∧ (left - 1) * o.nAcq < o.maxTotal - tot
  | .resampling k => 0 ≤ k ∧ k + (retries k0 pre + 1 : ℕ) = o.nResamples
  | .givingUp k => post = [] ∧ k = retries k0 pre ∧ o.nResamples ≤ k
  | .evaluated n => max 1 (o.nAcq / 2) ≤ (n : ℤ) ∧ pre.getLast? = some (.proposed n)
  | .finished .. => post = []
  | .proposed _ => True

theorem says_cons {t0 it0 k0 : ℕ} {b1 b2 b3 : Msg} {pre post : List Msg} {m : Msg} {t1 it1 k1 : ℕ}
    (hit : it1 = it0 + banners [b1, b2, b3]) (ht : t1 = t0 + evalsSaid [b1, b2, b3])
    (hk : k1 = retries k0 [b1, b2, b3])
    (hm : ∀ n, m = .evaluated n → pre ≠ [])
    (h : Says o t1 it1 k1 pre m post) : Says o t0 it0 k0 (b1 :: b2 :: b3 :: pre) m post := by
  have e1 : banners (b1 :: b2 :: b3 :: pre) = banners [b1, b2, b3] + banners pre := by
    unfold banners; rw [← List.countP_append]; rfl
  have e2 : ∀ l l' : List Msg, evalsSaid (l ++ l') = evalsSaid l + evalsSaid l' := by
    intro l l'
    induction l with
    | nil => simp [evalsSaid]
    | cons a l ih => cases a <;> simp [evalsSaid, ih, Nat.add_assoc]
  have e3 : ∀ (l l' : List Msg) (k : ℕ), retries k (l ++ l') = retries (retries k l) l' := by
    intro l l'
    induction l with
    | nil => intro k; simp [retries]
    | cons a l ih => intro k; cases a <;> simp [retries, ih]
  have e2' : evalsSaid (b1 :: b2 :: b3 :: pre) = evalsSaid [b1, b2, b3] + evalsSaid pre := e2 [b1, b2, b3] pre
  have e3' : retries k0 (b1 :: b2 :: b3 :: pre) = retries (retries k0 [b1, b2, b3]) pre := e3 [b1, b2, b3] pre k0
  unfold Says at h ⊢
  cases m with
  | iteration it am left tot fin =>
    dsimp only at h ⊢
    obtain ⟨h1, h2, h3⟩ := h
    exact ⟨by rw [e1]; omega, by rw [e2']; omega, h3⟩
  | resampling k =>
    dsimp only at h ⊢
    rw [e3', ← hk]; exact h
  | givingUp k =>
    dsimp only at h ⊢
    rw [e3', ← hk]; exact h
  | evaluated n =>
    dsimp only at h ⊢
    refine ⟨h.1, ?_⟩
    have := hm n rfl
    obtain ⟨a, l, rfl⟩ := List.exists_cons_of_ne_nil this
    rw [List.getLast?_cons_cons, List.getLast?_cons_cons, List.getLast?_cons_cons]
    exact h.2
  | finished c t f g => exact h
  | proposed n => trivial

/-- The first message after which the loop goes on is a banner or the last one. -/
theorem loopMsgs_head (fuel : ℕ) (st : St G X) (n : ℕ) (post : List Msg) :
    loopMsgs o mc dont nT nF steps fuel st ≠ .evaluated n :: post := by
  intro h
  cases fuel with
  | zero => simp [loopMsgs] at h
  | succ fuel =>
    by_cases hc : 0 < o.maxTotal - nT st.gpr ∧ 0 < o.maxFinite - nF st.gpr ∧ st.hasConverged = false
    · simp only [loopMsgs] at h; rw [if_pos hc] at h; simp [banner] at h
    · rw [(loop_end (dont := dont) fuel st hc).2] at h; simp [finalMsg] at h

theorem loop_says (hq : 0 < o.nAcq) (I : G → Prop)
    (hfit : ∀ i g g', I g → (steps i g).fit g = .ok g' → I g' ∧ nT g' = nT g + (steps i g).cands.length) :
    ∀ (fuel : ℕ) (st : St G X) (pre post : List Msg) (m : Msg), I st.gpr →
      loopMsgs o mc dont nT nF steps fuel st = pre ++ m :: post →
      Says o (nT st.gpr) st.iter st.resamples pre m post := by
  intro fuel
  induction fuel with
  | zero => intro st pre post m _ h; simp [loopMsgs] at h
  | succ fuel ih =>
    intro st pre post m hI h
    by_cases hc : 0 < o.maxTotal - nT st.gpr ∧ 0 < o.maxFinite - nF st.gpr ∧ st.hasConverged = false
    · have hb : ∀ post, Says o (nT st.gpr) st.iter st.resamples [] (banner o dont nT nF st) post := by
        intro post
        have := ceilQ_spec (o.maxTotal - nT st.gpr) hq
        simp only [Says, banner, banners, evalsSaid, List.countP_nil]
        exact ⟨trivial, by omega, by omega, by omega, this.1, this.2⟩
      rcases loop_step (mc := mc) (dont := dont) (steps := steps) fuel st hc with
        ⟨_, h2, _, hm⟩ | ⟨_, h2, st', e1, e2, e3, _, hm⟩ | ⟨h1, _, hm⟩ | ⟨h1, st', e1, e2, e3, _, _, hm⟩ <;> rw [hm] at h
      · rcases pre with _ | ⟨b1, _ | ⟨b2, _ | ⟨b3, pre⟩⟩⟩ <;> simp at h
        · obtain ⟨rfl, h⟩ := h; exact hb _
        · obtain ⟨_, rfl, _⟩ := h; trivial
        · obtain ⟨rfl, rfl, rfl, rfl⟩ := h
          refine ⟨rfl, ?_, ?_⟩
          · simp [retries, banner]
          · omega
      · rcases pre with _ | ⟨b1, _ | ⟨b2, _ | ⟨b3, pre⟩⟩⟩ <;> simp only [List.nil_append, List.cons_append, List.cons.injEq] at h
        · obtain ⟨rfl, h⟩ := h; exact hb _
        · obtain ⟨_, rfl, _⟩ := h; trivial
        · obtain ⟨rfl, rfl, rfl, h⟩ := h
          simp only [Says, banner, retries]
          exact ⟨by omega, by omega⟩
        · obtain ⟨rfl, rfl, rfl, h⟩ := h
          have hs := ih st' pre post m (e1 ▸ hI) h
          refine says_cons ?_ ?_ ?_ ?_ hs
          · rw [e2]; simp [banners, banner]
          · rw [e1]; simp [evalsSaid, banner]
          · rw [e3]; simp [retries, banner]
          · rintro n rfl rfl; exact loopMsgs_head _ _ _ _ h
      · rcases pre with _ | ⟨b1, _ | ⟨b2, _ | ⟨b3, pre⟩⟩⟩ <;> simp at h
        · obtain ⟨rfl, h⟩ := h; exact hb _
        · obtain ⟨_, rfl, _⟩ := h; trivial
        · obtain ⟨rfl, rfl, rfl, rfl⟩ := h
          exact ⟨h1, rfl⟩
      · rcases pre with _ | ⟨b1, _ | ⟨b2, _ | ⟨b3, pre⟩⟩⟩ <;> simp only [List.nil_append, List.cons_append, List.cons.injEq] at h
        · obtain ⟨rfl, h⟩ := h; exact hb _
        · obtain ⟨_, rfl, _⟩ := h; trivial
        · obtain ⟨rfl, rfl, rfl, h⟩ := h
          exact ⟨h1, rfl⟩
        · obtain ⟨rfl, rfl, rfl, h⟩ := h
          obtain ⟨hI', hT⟩ := hfit _ _ _ hI e1
          have hs := ih st' pre post m hI' h
          refine says_cons ?_ ?_ ?_ ?_ hs
          · rw [e2]; simp [banners, banner]
          · rw [hT]; simp [evalsSaid, banner]
          · rw [e3]; simp [retries, banner]
          · rintro n rfl rfl; exact loopMsgs_head _ _ _ _ h
    · rw [(loop_end (dont := dont) (mc := mc) (steps := steps) fuel st hc).2] at h
      rcases pre with _ | ⟨b1, pre⟩ <;> simp at h
      obtain ⟨rfl, rfl⟩ := h
      rfl

/-- **C159**, what is said during the loop, for a surrogate whose `n_total` grows by the number of points evaluated
(C63): each banner shows the number of the iteration and the number of evaluations announced so far (plus those of the
initial training), both budgets are not used up at that moment, and the number of iterations that it shows is the
smallest number of full acquisitions that use up the budget. An announced evaluation is that of all the proposed
points. The "tries remaining" are those left after the announced one, never negative; the number of re-tries in the
message of giving up is that of the announced re-samplings since the last evaluation, and it is the last message. -/
theorem C159_during (hq : 0 < o.nAcq) (I : G → Prop)
    (hfit : ∀ i g g', I g → (steps i g).fit g = .ok g' → I g' ∧ nT g' = nT g + (steps i g).cands.length)
    {fuel : ℕ} {g : G} (hI : I g) {pre post : List Msg} {m : Msg}
    (h : loopMsgs o mc dont nT nF steps fuel (.start g) = pre ++ m :: post) :
    (∀ it am left tot fin, m = .iteration it am left tot fin →
      it = 1 + banners pre ∧ tot = nT g + evalsSaid pre ∧ (tot : ℤ) < o.maxTotal ∧ (fin : ℤ) < o.maxFinite ∧
      o.maxTotal - tot ≤ left * o.nAcq ∧ (left - 1) * o.nAcq < o.maxTotal - tot) ∧
    (∀ k, m = .resampling k → 0 ≤ k ∧ k + (retries 0 pre + 1 : ℕ) = o.nResamples) ∧
    (∀ k, m = .givingUp k → post = [] ∧ k = retries 0 pre ∧ o.nResamples ≤ k) ∧
    (∀ n, m = .evaluated n → max 1 (o.nAcq / 2) ≤ (n : ℤ) ∧ pre.getLast? = some (.proposed n)) ∧
    (∀ c t f u, m = .finished c t f u → post = []) := by
  have hs := loop_says hq I hfit fuel _ pre post m hI h
  refine ⟨?_, ?_, ?_, ?_, ?_⟩
  · rintro it am left tot fin rfl
    simpa [Says, St.start] using hs
  · rintro k rfl; simpa [Says, St.start] using hs
  · rintro k rfl; simpa [Says, St.start] using hs
  · rintro k rfl; simpa [Says, St.start] using hs
  · rintro c t f u rfl; simpa [Says, St.start] using hs


theorem banners_cons3 (n : ℕ) (st : St G X) (m : Msg) (l : List Msg) (hm : banners [m] = 0) :
    banners (banner o dont nT nF st :: .proposed n :: m :: l) = banners l + 1 := by
  have : banners (banner o dont nT nF st :: .proposed n :: m :: l) =
      banners [banner o dont nT nF st] + (banners [.proposed n] + (banners [m] + banners l)) := by
    unfold banners; simp only [← List.countP_append]; rfl
  rw [this, hm]; simp [banners, banner]; omega

/-- The number of banners is that of the iterations; and how the messages end. -/
theorem loop_msgs_end : ∀ (fuel : ℕ) (st r : St G X) (e : Exit),
    loop o mc nT nF steps fuel st = some (r, e) →
    r.iter = st.iter + banners (loopMsgs o mc dont nT nF steps fuel st) ∧
    (st.resamples ≤ max 0 o.nResamples → e = .finished → r.resamples ≤ max 0 o.nResamples) ∧
    (e = .finished → (o.maxTotal - nT r.gpr ≤ 0 ∨ o.maxFinite - nF r.gpr ≤ 0 ∨ r.hasConverged = true) ∧
      ∃ pre, loopMsgs o mc dont nT nF steps fuel st = pre ++ [finalMsg o nT nF r] ∧
        ∀ m ∈ pre, (∀ c t f u, m ≠ .finished c t f u) ∧ ∀ k, m ≠ .givingUp k) ∧
    (e = .gaveUp → ∃ pre k, loopMsgs o mc dont nT nF steps fuel st = pre ++ [.givingUp k]) ∧
    (e ≠ .finished → ∀ c t f u, .finished c t f u ∉ loopMsgs o mc dont nT nF steps fuel st) := by
  intro fuel
  induction fuel with
  | zero => intro st r e h; simp [loop] at h
  | succ fuel ih =>
    intro st r e h
    by_cases hc : 0 < o.maxTotal - nT st.gpr ∧ 0 < o.maxFinite - nF st.gpr ∧ st.hasConverged = false
    · rcases loop_step (mc := mc) (dont := dont) (steps := steps) fuel st hc with
        ⟨_, h2, ⟨r', hl, hr⟩, hm⟩ | ⟨_, h2, st', e1, e2, e3, hl, hm⟩ | ⟨h1, ⟨r', x, hl, hr⟩, hm⟩ |
          ⟨h1, st', e1, e2, e3, _, hl, hm⟩ <;> rw [hl] at h <;> rw [hm]
      · cases h
        refine ⟨by rw [hr, banners_cons3 _ _ _ _ (by simp [banners])]; simp [banners], fun _ hh => (by cases hh),
          fun hh => (by cases hh), fun _ => ⟨[_, _], _, rfl⟩, ?_⟩
        intro _ c t f u; simp [banner]
      · obtain ⟨a, b, c, d, f⟩ := ih st' r e h
        refine ⟨by rw [a, e2, banners_cons3 _ _ _ _ (by simp [banners])]; omega, fun hr he => b (by rw [e3]; omega) he, ?_, ?_, ?_⟩
        · intro he
          obtain ⟨c1, pre, c2, c3⟩ := c he
          refine ⟨c1, _ :: _ :: _ :: pre, by rw [c2]; rfl, ?_⟩
          intro m hm
          simp only [List.mem_cons] at hm
          rcases hm with rfl | rfl | rfl | hm
          · simp [banner]
          · simp
          · simp
          · exact c3 m hm
        · intro he
          obtain ⟨pre, k, hk⟩ := d he
          exact ⟨_ :: _ :: _ :: pre, k, by rw [hk]; rfl⟩
        · intro he cc t ff u
          have := f he cc t ff u
          simp [banner, this]
      · cases h
        refine ⟨by rw [hr, banners_cons3 _ _ _ _ (by simp [banners])]; simp [banners], fun _ hh => (by cases hh),
          fun hh => (by cases hh), fun hh => (by cases hh), ?_⟩
        intro _ c t f u; simp [banner]
      · obtain ⟨a, b, c, d, f⟩ := ih st' r e h
        refine ⟨by rw [a, e2, banners_cons3 _ _ _ _ (by simp [banners])]; omega, fun hr he => b (by rw [e3]; omega) he, ?_, ?_, ?_⟩
        · intro he
          obtain ⟨c1, pre, c2, c3⟩ := c he
          refine ⟨c1, _ :: _ :: _ :: pre, by rw [c2]; rfl, ?_⟩
          intro m hm
          simp only [List.mem_cons] at hm
          rcases hm with rfl | rfl | rfl | hm
          · simp [banner]
          · simp
          · simp
          · exact c3 m hm
        · intro he
          obtain ⟨pre, k, hk⟩ := d he
          exact ⟨_ :: _ :: _ :: pre, k, by rw [hk]; rfl⟩
        · intro he cc t ff u
          have := f he cc t ff u
          simp [banner, this]
    · obtain ⟨hl, hm⟩ := loop_end (dont := dont) (mc := mc) (steps := steps) fuel st hc
      rw [hl] at h; rw [hm]
      cases h
      refine ⟨by simp [banners, finalMsg], fun h _ => h, fun _ => ⟨?_, [], rfl, by simp⟩, fun hh => (by cases hh),
        fun hh => absurd rfl hh⟩
      cases hcv : st.hasConverged with
      | true => exact .inr (.inr rfl)
      | false =>
        by_contra hn
        push_neg at hn
        exact hc ⟨hn.1, hn.2.1, hcv⟩

/-- **C159**, final banner. If the loop ends by its condition, the last message (and no other) is the final banner, it
says that the run has converged exactly if `has_converged`, that a maximum has been reached exactly if it has, and it
gives at least one of these three reasons (with `n_finite ≤ n_total`); with `n_resamples_before_giveup ≥ 0` it never says
that it gave up. A run that gives up, which is announced by its last message, has no final banner, and neither has one
that raises. -/
theorem C159_final_banner (hF : ∀ g, nF g ≤ nT g) {fuel : ℕ} {g : G} {r : St G X} {e : Exit}
    (h : loop o mc nT nF steps fuel (.start g) = some (r, e)) :
    (e = .finished → ∃ pre c t f u,
      loopMsgs o mc dont nT nF steps fuel (.start g) = pre ++ [.finished c t f u] ∧
      (∀ m ∈ pre, (∀ c t f u, m ≠ .finished c t f u) ∧ ∀ k, m ≠ .givingUp k) ∧
      (c = true ↔ r.hasConverged = true) ∧ (t = true ↔ o.maxTotal ≤ nT r.gpr) ∧
      (f = true ↔ o.maxFinite < o.maxTotal ∧ o.maxFinite ≤ nF r.gpr) ∧
      (c = true ∨ t = true ∨ f = true) ∧ (0 ≤ o.nResamples → u = false)) ∧
    (e = .gaveUp → ∃ pre k, loopMsgs o mc dont nT nF steps fuel (.start g) = pre ++ [.givingUp k]) ∧
    (e ≠ .finished → ∀ c t f u, .finished c t f u ∉ loopMsgs o mc dont nT nF steps fuel (.start g)) := by
  obtain ⟨-, h2, h3, h4, h5⟩ := loop_msgs_end (dont := dont) fuel _ _ _ h
  refine ⟨fun he => ?_, h4, h5⟩
  obtain ⟨hwhy, pre, hpre, hno⟩ := h3 he
  have hres := h2 (by simp [St.start]) he
  refine ⟨pre, _, _, _, _, hpre, hno, Iff.rfl, ?_, ?_, ?_, ?_⟩
  · rw [decide_eq_true_iff]; omega
  · rw [Bool.and_eq_true, decide_eq_true_iff, decide_eq_true_iff]
    constructor <;> rintro ⟨a, b⟩ <;> exact ⟨a, by omega⟩
  · rcases hwhy with hw | hw | hw
    · exact .inr (.inl (decide_eq_true hw))
    · by_cases hlt : o.maxFinite < o.maxTotal
      · exact .inr (.inr (by rw [Bool.and_eq_true, decide_eq_true_iff, decide_eq_true_iff]; exact ⟨hlt, hw⟩))
      · have := hF r.gpr
        exact .inr (.inl (decide_eq_true (by omega)))
    · exact .inl hw
  · intro h0
    rw [decide_eq_false_iff_not]; omega

/-! ### The announced number of iterations -/

theorem banners_le (hq : 0 < o.nAcq) (I : G → Prop)
    (hfit : ∀ i g g', I g → (steps i g).fit g = .ok g' → I g' ∧ nT g' = nT g + (steps i g).cands.length)
    (hfull : ∀ i g, I g → o.nAcq ≤ ((steps i g).cands.length : ℤ)) :
    ∀ (fuel : ℕ) (st : St G X), I st.gpr →
      (banners (loopMsgs o mc dont nT nF steps fuel st) : ℤ) ≤ max 0 (ceilQ (o.maxTotal - nT st.gpr) o.nAcq) := by
  intro fuel
  induction fuel with
  | zero => intro st _; simp [loopMsgs, banners]
  | succ fuel ih =>
    intro st hI
    by_cases hc : 0 < o.maxTotal - nT st.gpr ∧ 0 < o.maxFinite - nF st.gpr ∧ st.hasConverged = false
    · have hpos := ceilQ_pos hq hc.1
      have hf := hfull st.iter st.gpr hI
      have hno : ¬ ((steps st.iter st.gpr).cands.length : ℤ) < max 1 (o.nAcq / 2) := by
        intro hlt; rcases lt_max_iff.1 hlt with h | h <;> omega
      rcases loop_step (mc := mc) (dont := dont) (steps := steps) fuel st hc with
        ⟨hh, _⟩ | ⟨hh, _⟩ | ⟨h1, _, hm⟩ | ⟨h1, st', e1, e2, e3, _, hl, hm⟩
      · exact absurd hh hno
      · exact absurd hh hno
      · rw [hm, banners_cons3 _ _ _ _ (by simp [banners])]; simp [banners]; omega
      · obtain ⟨hI', hT⟩ := hfit _ _ _ hI e1
        have := ih st' hI'
        rw [hm, banners_cons3 _ _ _ _ (by simp [banners])]
        have h1 : ceilQ (o.maxTotal - nT st'.gpr) o.nAcq ≤ ceilQ (o.maxTotal - nT st.gpr - o.nAcq) o.nAcq :=
          ceilQ_mono hq (by rw [hT]; push_cast; omega)
        rw [ceilQ_sub _ hq] at h1
        push_cast; omega
    · rw [(loop_end (dont := dont) (mc := mc) (steps := steps) fuel st hc).2]; simp [banners, finalMsg]

theorem le_banners (hq : 0 < o.nAcq) (I : G → Prop)
    (hfit : ∀ i g g', I g → (steps i g).fit g = .ok g' → I g' ∧ nT g' = nT g + (steps i g).cands.length)
    (hacq : ∀ i g, I g → ((steps i g).cands.length : ℤ) ≤ o.nAcq) :
    ∀ (fuel : ℕ) (st r : St G X), I st.gpr → loop o mc nT nF steps fuel st = some (r, .finished) →
      o.maxTotal ≤ nT r.gpr →
      ceilQ (o.maxTotal - nT st.gpr) o.nAcq ≤ banners (loopMsgs o mc dont nT nF steps fuel st) := by
  intro fuel
  induction fuel with
  | zero => intro st r _ h; simp [loop] at h
  | succ fuel ih =>
    intro st r hI h hr
    by_cases hc : 0 < o.maxTotal - nT st.gpr ∧ 0 < o.maxFinite - nF st.gpr ∧ st.hasConverged = false
    · have hf := hacq st.iter st.gpr hI
      rcases loop_step (mc := mc) (dont := dont) (steps := steps) fuel st hc with
        ⟨_, h2, ⟨r', hl, _⟩, hm⟩ | ⟨_, h2, st', e1, e2, e3, hl, hm⟩ | ⟨h1, ⟨r', x, hl, _⟩, hm⟩ |
          ⟨h1, st', e1, e2, e3, _, hl, hm⟩ <;> rw [hl] at h <;> rw [hm]
      · cases h
      · have := ih st' r (e1 ▸ hI) h hr
        rw [e1] at this
        rw [banners_cons3 _ _ _ _ (by simp [banners])]; push_cast; omega
      · cases h
      · obtain ⟨hI', hT⟩ := hfit _ _ _ hI e1
        have := ih st' r hI' h hr
        rw [banners_cons3 _ _ _ _ (by simp [banners])]
        have h1 : ceilQ (o.maxTotal - nT st.gpr - o.nAcq) o.nAcq ≤ ceilQ (o.maxTotal - nT st'.gpr) o.nAcq :=
          ceilQ_mono hq (by rw [hT]; push_cast; omega)
        rw [ceilQ_sub _ hq] at h1
        push_cast; omega
    · obtain ⟨hl, hm⟩ := loop_end (dont := dont) (mc := mc) (steps := steps) fuel st hc
      rw [hl] at h; cases h
      exact (ceilQ_nonpos hq (by omega)).trans (by positivity)

/-- A banner starts the messages of the rest of the loop. -/
theorem loop_suffix (I : G → Prop)
    (hfit : ∀ i g g', I g → (steps i g).fit g = .ok g' → I g' ∧ nT g' = nT g + (steps i g).cands.length) :
    ∀ (fuel : ℕ) (st : St G X) (pre post : List Msg) (it : ℕ) (am : Bool) (left : ℤ) (tot fin : ℕ), I st.gpr →
      loopMsgs o mc dont nT nF steps fuel st = pre ++ .iteration it am left tot fin :: post →
      ∃ fuel' st', I st'.gpr ∧ loop o mc nT nF steps fuel st = loop o mc nT nF steps fuel' st' ∧
        loopMsgs o mc dont nT nF steps fuel' st' = .iteration it am left tot fin :: post ∧
        left = ceilQ (o.maxTotal - nT st'.gpr) o.nAcq ∧ am = atMost o dont ∧ nT st'.gpr < o.maxTotal := by
  intro fuel
  induction fuel with
  | zero => intro st pre post it am left tot fin _ h; simp [loopMsgs] at h
  | succ fuel ih =>
    intro st pre post it am left tot fin hI h
    by_cases hc : 0 < o.maxTotal - nT st.gpr ∧ 0 < o.maxFinite - nF st.gpr ∧ st.hasConverged = false
    · rcases pre with _ | ⟨b1, pre⟩
      · refine ⟨fuel + 1, st, hI, rfl, h, ?_⟩
        simp only [loopMsgs] at h
        rw [if_pos hc] at h
        simp only [banner, List.nil_append, List.cons.injEq, Msg.iteration.injEq] at h
        exact ⟨h.1.2.2.1.symm, h.1.2.1.symm, by omega⟩
      · rcases loop_step (mc := mc) (dont := dont) (steps := steps) fuel st hc with
          ⟨_, h2, _, hm⟩ | ⟨_, h2, st', e1, e2, e3, hl, hm⟩ | ⟨h1, _, hm⟩ |
            ⟨h1, st', e1, e2, e3, _, hl, hm⟩ <;> rw [hm] at h
        · rcases pre with _ | ⟨b2, _ | ⟨b3, pre⟩⟩ <;> simp at h
        · rcases pre with _ | ⟨b2, _ | ⟨b3, pre⟩⟩ <;> simp at h
          obtain ⟨_, _, _, h⟩ := h
          rw [hl]
          exact ih st' pre post it am left tot fin (e1 ▸ hI) h
        · rcases pre with _ | ⟨b2, _ | ⟨b3, pre⟩⟩ <;> simp at h
        · rcases pre with _ | ⟨b2, _ | ⟨b3, pre⟩⟩ <;> simp at h
          obtain ⟨_, _, _, h⟩ := h
          rw [hl]
          exact ih st' pre post it am left tot fin (hfit _ _ _ hI e1).1 h
    · rw [(loop_end (dont := dont) (mc := mc) (steps := steps) fuel st hc).2] at h
      rcases pre with _ | ⟨b1, pre⟩ <;> simp [finalMsg] at h

/-- **C159**, the announced number of iterations, what is true: if every acquisition proposes (after the removal of
repeated points) at least the number of points asked for, then each banner announces at least the number of iterations
made from it on, itself included. -/
theorem C159_left_partial (hq : 0 < o.nAcq) (I : G → Prop)
    (hfit : ∀ i g g', I g → (steps i g).fit g = .ok g' → I g' ∧ nT g' = nT g + (steps i g).cands.length)
    (hfull : ∀ i g, I g → o.nAcq ≤ ((steps i g).cands.length : ℤ))
    {fuel : ℕ} {g : G} (hI : I g) {pre post : List Msg} {it tot fin : ℕ} {am : Bool} {left : ℤ}
    (h : loopMsgs o mc dont nT nF steps fuel (.start g) = pre ++ .iteration it am left tot fin :: post) :
    (1 + banners post : ℤ) ≤ left := by
  obtain ⟨fuel', st', hI', -, hm, rfl, -, hlt⟩ := loop_suffix I hfit fuel _ pre post it am left tot fin hI h
  have := banners_le (mc := mc) (dont := dont) (nF := nF) hq I hfit hfull fuel' st' hI'
  have hpos := ceilQ_pos hq (show 0 < o.maxTotal - nT st'.gpr by omega)
  rw [hm] at this
  have e : banners (Msg.iteration it am (ceilQ (o.maxTotal - nT st'.gpr) o.nAcq) tot fin :: post) = banners post + 1 := by
    simp [banners]
  rw [e] at this
  push_cast at this
  omega

/-- **C159**, the announced number of iterations is a lower bound, not an upper one: if no acquisition proposes more
points than asked for and the run uses up its budget of evaluations, then from each banner on, itself included, there
are at least as many iterations as it announces. -/
theorem C159_left_at_least (hq : 0 < o.nAcq) (I : G → Prop)
    (hfit : ∀ i g g', I g → (steps i g).fit g = .ok g' → I g' ∧ nT g' = nT g + (steps i g).cands.length)
    (hacq : ∀ i g, I g → ((steps i g).cands.length : ℤ) ≤ o.nAcq)
    {fuel : ℕ} {g : G} (hI : I g) {r : St G X}
    (hl : loop o mc nT nF steps fuel (.start g) = some (r, .finished)) (hr : o.maxTotal ≤ nT r.gpr)
    {pre post : List Msg} {it tot fin : ℕ} {am : Bool} {left : ℤ}
    (h : loopMsgs o mc dont nT nF steps fuel (.start g) = pre ++ .iteration it am left tot fin :: post) :
    left ≤ 1 + banners post := by
  obtain ⟨fuel', st', hI', hl', hm, rfl, -, hlt⟩ := loop_suffix I hfit fuel _ pre post it am left tot fin hI h
  have := le_banners (mc := mc) (dont := dont) (nF := nF) hq I hfit hacq fuel' st' r hI' (hl' ▸ hl) hr
  rw [hm] at this
  have e : banners (Msg.iteration it am (ceilQ (o.maxTotal - nT st'.gpr) o.nAcq) tot fin :: post) = banners post + 1 := by
    simp [banners]
  rw [e] at this
  push_cast at this
  omega

end Loop

section Ex

/-- Two points per acquisition, budget of 6. -/
def exM : Opts := ⟨2, 2, 6, 6, 2, 1, 1, 1⟩

/-- C159: a run with two points in each acquisition: the banners announce 2 and 1 iterations, and there are 2 and 1. -/
example : loopMsgs exM true true id id (fun _ _ => exStep 2 false false) 100 (.start 2) =
    [.iteration 1 false 2 2 2, .proposed 2, .evaluated 2, .iteration 2 false 1 4 4, .proposed 2, .evaluated 2,
     .finished false true false false] := by decide +kernel

/-- C159: the hypotheses on the steps. -/
example : 0 < exM.nAcq ∧ (∀ i g g', True → ((fun _ _ => exStep 2 false false : ℕ → ℕ → Step ℕ ℕ) i g).fit g = .ok g' →
      True ∧ id g' = id g + ((fun _ _ => exStep 2 false false : ℕ → ℕ → Step ℕ ℕ) i g).cands.length) ∧
    (∀ i g, True → exM.nAcq ≤ (((fun _ _ => exStep 2 false false : ℕ → ℕ → Step ℕ ℕ) i g).cands.length : ℤ)) := by
  refine ⟨by decide, ?_, ?_⟩
  · intro i g g' _ h
    simp [exStep] at h ⊢; omega
  · intro i g _; simp [exStep, exM]

/-- C159: the hypotheses on how the loop ends. -/
example : (loop exM true id id (fun _ _ => exStep 2 false false) 100 (.start 2)).map (fun r => (r.1.gpr, r.2)) =
    some (6, .finished) ∧
    (loop { exM with nAcq := 4 } true id id (fun _ _ => exStep 1 false false) 100 (.start 2)).map (·.2) =
      some .gaveUp := by decide +kernel

/-- **C159**, negation with witness: with one point per acquisition (half of those asked for, so enough), the first
banner announces 2 iterations, without "at most", or at most 2, and there are 4; and the second one announces again 2. -/
theorem C159_left_counterexample (dont : Bool) :
    loopMsgs exM true dont id id (fun _ _ => exStep 1 false false) 100 (.start 2) =
    [.iteration 1 (!dont) 2 2 2, .proposed 1, .evaluated 1, .iteration 2 (!dont) 2 3 3, .proposed 1, .evaluated 1,
     .iteration 3 (!dont) 1 4 4, .proposed 1, .evaluated 1, .iteration 4 (!dont) 1 5 5, .proposed 1, .evaluated 1,
     .finished false true false false] := by cases dont <;> decide +kernel

/-- **C159**, negation with witness: four points asked for and one proposed each time. The run gives up with "Acquisition
returning no values after 1 re-tries", though it had a point to evaluate both times; there is no final banner, so that
its line about giving up is never shown. -/
theorem C159_giving_up_counterexample :
    loopMsgs { exM with nAcq := 4 } true false id id (fun _ _ => exStep 1 false false) 100 (.start 2) =
    [.iteration 1 true 1 2 2, .proposed 1, .resampling 0, .iteration 2 true 1 2 2, .proposed 1, .givingUp 1] := by
  decide +kernel

/-- **C159**: with a negative `n_resamples_before_giveup` (which is accepted), a run that converges says that it gave up
as well. -/
theorem C159_negative_counterexample :
    loopMsgs { exM with nResamples := -1 } true false id id (fun _ _ => exStep 2 true true) 100 (.start 2) =
    [.iteration 1 true 2 2 2, .proposed 2, .evaluated 2, .finished true false false true] ∧
    (construct 1 1 { nResamples := some (-1) }).toOption.map (·.nResamples) = some (-1) := by decide +kernel

end Ex

/-! ## Evaluation, fit, and initial training -/

section Eval
variable {P PX Θ K : Type*} [Field K] [LinearOrder K] [IsStrictOrderedRing K]

/-- **C159**, message about an evaluation: number of points and of finite values (neither infinite nor NaN), and with
several processes the largest number of points that a process evaluates, which is that of the main process. -/
theorem C159_evaluation {p : ℕ} (hp : 0 < p) (ys : List (Ext K)) :
    (evalMsg p ys).1 = ys.length ∧
    (evalMsg p ys).2.2 = (ys.filter fun y => decide (y ≠ .negInf ∧ y ≠ .posInf ∧ y ≠ .nan)).length ∧
    ((evalMsg p ys).2.1 = none ↔ p = 1) ∧
    ∀ n, (evalMsg p ys).2.1 = some n → n ∈ Mpi.splitNumber ys.length p ∧ ∀ k ∈ Mpi.splitNumber ys.length p, k ≤ n := by
  refine ⟨rfl, ?_, ?_, ?_⟩
  · rw [← List.countP_eq_length_filter]
    show ys.countP Ext.isFinite = _
    congr 1
    funext y
    cases y <;> simp [Ext.isFinite]
  · unfold evalMsg
    split_ifs with h <;> simp <;> omega
  · intro n hn
    unfold evalMsg at hn
    split_ifs at hn with h
    simp only [Option.some.injEq] at hn
    obtain ⟨h1, -, -, h4⟩ := Mpi.C01_split_number_balanced ys.length p hp
    obtain ⟨a, l, hal⟩ := List.exists_cons_of_length_pos (show 0 < (Mpi.splitNumber ys.length p).length by omega)
    rw [hal] at hn h4 ⊢
    simp at hn
    subst hn
    refine ⟨by simp, fun k hk => ?_⟩
    rcases List.mem_cons.1 hk with rfl | hk
    · exact le_rfl
    · exact (List.pairwise_cons.1 h4).1 k hk

example : evalMsg 3 [.fin (1 : ℚ), .negInf, .fin 2, .fin 0] = (4, some 2, 3) := by decide +kernel

open Gpr

open Classical in
/-- Number of points of a batch that enter the regressor. -/
theorem nLastFinite_eq {cfg : Cfg P PX Θ K} (hc : CfgOk cfg) {st st' : State P PX Θ K}
    {c : Call P K} (hi : Inv cfg st) (hg : cfg.useSvm = true → ∀ y ∈ c.ys, Good y) (hne : c.ys ≠ [])
    (h : append cfg st c = (st', none)) :
    st'.nLast = c.ys.length ∧
    st'.nLastFinite = c.ys.countP fun y => decide (KeptBy cfg (st.yAll ++ c.ys) y) := by
  obtain ⟨hl, hgood, hx, hy⟩ := hi
  have hg' : cfg.useSvm = true → ∀ y ∈ st.yAll ++ c.ys, Good y := by
    intro hu y hy
    rcases List.mem_append.1 hy with hy | hy
    · exact hgood hu y hy
    · exact hg hu y hy
  obtain ⟨hxa, hya, hnl, hcl, mask, hml, hms, hnf, -, hend⟩ := append_data hc hg' hl h
  refine ⟨hnl, ?_⟩
  have hn0 : c.ys.length ≠ 0 := by simpa using hne
  have hyl : st'.yAll.length = st.yAll.length + c.ys.length := by rw [hya]; simp
  have key : (if cfg.useSvm then lastSlice c.ys.length mask else List.replicate c.ys.length true) =
      c.ys.map fun y => decide (KeptBy cfg (st.yAll ++ c.ys) y) := by
    cases hu : cfg.useSvm with
    | false =>
      simp only [Bool.false_eq_true, if_false]
      symm
      rw [List.eq_replicate_iff]
      refine ⟨by simp, fun b hb => ?_⟩
      obtain ⟨y, _, rfl⟩ := List.mem_map.1 hb
      rw [decide_eq_true_iff]
      intro hu'; rw [hu] at hu'; cases hu'
    | true =>
      simp only [if_true]
      rw [lastSlice_eq_drop _ _ hn0]
      apply List.ext_getElem
      · rw [List.length_drop, List.length_map]; omega
      · intro i h1 h2
        rw [List.getElem_drop, List.getElem_map]
        have hi' : i < c.ys.length := by simpa using h2
        have hm := hms (mask.length - c.ys.length + i) (by omega) (by omega)
        have he : st'.yAll[mask.length - c.ys.length + i]'(by omega) = c.ys[i] := by
          simp only [hya]
          rw [List.getElem_append_right (by omega)]
          congr 1; omega
        rw [he, hya] at hm
        rw [Bool.eq_iff_iff, hm, decide_eq_true_iff]
  rw [hnf, key, List.count, List.countP_map]
  congr 1
  funext y
  simp

open Classical in
/-- **C159**, message about a fit, what is true: after the append of a non-empty batch the first number is that of the
new points; the second one, "of which … were added to the GPR", is the number of those that the regressor keeps exactly
if it keeps all of them. -/
theorem C159_fit_partial {cfg : Cfg P PX Θ K} (hc : CfgOk cfg) {st st' : State P PX Θ K}
    {c : Call P K} (hi : Inv cfg st) (hg : cfg.useSvm = true → ∀ y ∈ c.ys, Good y) (hne : c.ys ≠ [])
    (h : append cfg st c = (st', none)) :
    (fitMsg st').1 = c.ys.length ∧
    ((fitMsg st').2 = (c.ys.countP fun y => decide (KeptBy cfg (st.yAll ++ c.ys) y)) ↔
      ∀ y ∈ c.ys, KeptBy cfg (st.yAll ++ c.ys) y) := by
  obtain ⟨h1, -⟩ := nLastFinite_eq hc hi hg hne h
  refine ⟨h1, ?_⟩
  unfold fitMsg
  rw [h1, eq_comm, List.countP_eq_length]
  simp

/-- C159: a batch that is kept, and one of which two points are. -/
example : ((run (exCfg true) ex0 [{ batch := some ([1, 2], [.fin 1, .fin 2]) }]).map fun s => (fitMsg s, s.nLastFinite)) =
    some ((2, 2), 2) ∧
    ((run (exCfg true) ex0 [callA]).map fun s => (initFitMsg s, callA.ys.length)) = some (2, 3) := by decide +kernel

/-- **C159**, message about a fit, negation with witness: three new points, one of them with log-posterior `-∞`; "3 new
points, of which 3 were added to the GPR", and it has 2. -/
theorem C159_fit_counterexample :
    ((run (exCfg true) ex0 [callA]).map fun s => (fitMsg s, s.xTrain)) = some ((3, 3), [1, 3]) := by
  decide +kernel

open Classical in
/-- **C159**, message at the end of the initial training about the fit: the number of points that the regressor keeps. -/
theorem C159_initial_fit {cfg : Cfg P PX Θ K} (hc : CfgOk cfg) {st st' : State P PX Θ K}
    {c : Call P K} (hi : Inv cfg st) (hg : cfg.useSvm = true → ∀ y ∈ c.ys, Good y) (hne : c.ys ≠ [])
    (h : append cfg st c = (st', none)) :
    initFitMsg st' = c.ys.countP fun y => decide (KeptBy cfg (st.yAll ++ c.ys) y) :=
  (nLastFinite_eq hc hi hg hne h).2

/-- **C159**, message at the end of the initial training about the evaluations, what is true: without classifier and
without NaN or `+∞`, its second number is that of the finite values. -/
theorem C159_initial_partial {cfg : Cfg P PX Θ K} (hu : cfg.useSvm = false) (acc : List (P × Ext K))
    (hg : ∀ q ∈ acc, Good q.2) :
    initMsg cfg acc = (acc.length, (acc.map Prod.snd).countP Ext.isFinite) := by
  have hg' : ∀ y ∈ acc.map Prod.snd, Good y := by
    intro y hy
    obtain ⟨q, hq, rfl⟩ := List.mem_map.1 hy
    exact hg q hq
  unfold initMsg nFiniteNew
  cases hm : Ext.pyMax (acc.map Prod.snd) with
  | none =>
    cases acc with
    | nil => rfl
    | cons a l => simp [Ext.pyMax] at hm
  | some top =>
    have hne : acc.map Prod.snd ≠ [] := by rintro h0; rw [h0] at hm; simp [Ext.pyMax] at hm
    obtain ⟨M, hM, hMm, hMup⟩ := npMax_good _ hg' hne
    rw [pyMax_eq_npMax _ hg', hM, Option.some.injEq] at hm
    subst hm
    dsimp only
    congr 1
    apply List.countP_congr
    intro y hy
    unfold initIsFinite
    rw [hu]
    simp only [Bool.false_eq_true, if_false]
    rcases hg' M hMm with rfl | ⟨m, rfl⟩
    · have := hMup y hy
      rcases hg' y hy with rfl | ⟨v, rfl⟩
      · simp [Ext.sub, Ext.isFinite]
      · simp [Ext.le] at this
    · rcases hg' y hy with rfl | ⟨v, rfl⟩ <;> simp [Ext.sub, Ext.isFinite]

example : initMsg (exCfg false) [(1, .fin 3), (2, .negInf), (5, .fin (-100))] = (3, 2) := by decide +kernel

/-- **C159**, messages of the initial training, negation with witness. With a classifier, a finite value below its
threshold is reported as not finite. And the points that the surrogate had before count: two of them, two
evaluations (both `-∞`), and the message says 4 locations and 2 finite values; "2 finite points were added to the GPR"
afterwards, though both were there. -/
theorem C159_initial_counterexample :
    initMsg (exCfg true) [(1, .fin 3), (5, .fin (-100))] = (2, 1) ∧
    (initialTraining (exCfg true) 1 4 8 3 (fun i r j => (10 + j, .negInf)) exPre).toOption.map
      (fun q => (initMsg (exCfg true) q.1, initFitMsg q.2, exPre.xTrain)) = some ((4, 2), 2, [1, 2]) := by
  decide +kernel

end Eval
end GPry.Run
