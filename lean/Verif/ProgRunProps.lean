import Verif.ProgRun

set_option linter.all false

/-!
# C156: the progress table of a run
-/

namespace GPry.ProgRun

open GPry Spmd Spmd.Prog Progress

section
variable {K : Type} [Field K] [LinearOrder K] {p : ℕ}

theorem fill_cons (cs : List (Col × Ext K)) (row : Row K) (t : Table K) :
    fill cs (row :: t) = .ok (cs.foldl (fun row q => Function.update row q.1 q.2) row :: t) := by
  induction cs generalizing row with
  | nil => rfl
  | cons q cs ih =>
    obtain ⟨c, v⟩ := q
    show (setLast c v (row :: t)).bind (fill cs) = _
    unfold setLast
    exact ih _

/-- `mpi_sync` with any number of processes. -/
theorem runs_mpiSync (hp : 0 < p) (row : Fin p → Row K) (t : Fin p → Table K) (hN : ∀ r s, row r .nTotal = row s .nTotal ∧ row r .nFinite = row s .nFinite) :
    ∃ row' : Fin p → Row K, Runs (fun r => mpiSync p (row r :: t r)) (fun r => .ok (row' r :: t r)) ∧ (∀ r s, row' r = row' s) ∧
      (∀ r, row' r .nTotal = row r .nTotal ∧ row' r .nFinite = row r .nFinite) ∧
      ∀ n : K, row ⟨0, hp⟩ .evalsTruth = .fin n → (∀ r, r ≠ ⟨0, hp⟩ → row r .evalsTruth = .nan) → ∀ r, row' r .evalsTruth = .fin n := by
  rcases Nat.lt_or_ge 1 p with h1 | h1
  · obtain ⟨row', a1, a2, a3⟩ := runs_syncCols hp plan (by decide) row t
    obtain ⟨row'', b1, -, -, b2, -⟩ := C55_mpi_sync h1 row t
    have a1' : Runs (fun r => mpiSync p (row r :: t r)) (fun r => .ok (row' r :: t r)) := by
      unfold mpiSync
      simp only [if_neg (show ¬ p ≤ 1 by omega)]
      exact a1
    have he : row' = row'' := by
      have := Runs.det hp a1' b1
      funext r
      have := congrFun this r
      injection this with this
      injection this
    refine ⟨row', a1', fun r s => funext fun c => ?_, fun r => ⟨a3 _ (by decide) r, a3 _ (by decide) r⟩, ?_⟩
    · by_cases hc : ∃ op, (c, op) ∈ plan
      · obtain ⟨op, hc⟩ := hc
        rw [a2 c op hc r, a2 c op hc s]
      · cases c with
        | nTotal => rw [a3 _ (by decide) r, a3 _ (by decide) s]; exact (hN r s).1
        | nFinite => rw [a3 _ (by decide) r, a3 _ (by decide) s]; exact (hN r s).2
        | timeAcquire => exact absurd ⟨.max, by decide⟩ hc
        | evalsAcquire => exact absurd ⟨.sum, by decide⟩ hc
        | timeTruth => exact absurd ⟨.max, by decide⟩ hc
        | evalsTruth => exact absurd ⟨.sum, by decide⟩ hc
        | timeFit => exact absurd ⟨.max, by decide⟩ hc
        | evalsFit => exact absurd ⟨.sum, by decide⟩ hc
        | timeConvergence => exact absurd ⟨.max, by decide⟩ hc
        | evalsConvergence => exact absurd ⟨.sum, by decide⟩ hc
        | critValue => exact absurd ⟨.root, by decide⟩ hc
    · intro n hn hr r
      rw [he, (b2 .evalsTruth (by decide) r).2 ⟨_, _, hn⟩, Finset.sum_eq_single ⟨0, hp⟩]
      · rw [hn]
      · intro s _ hs
        rw [hr s hs]
      · intro h; exact absurd (Finset.mem_univ _) h
  · have : p = 1 := by omega
    subst this
    refine ⟨row, C55_one_process _, fun r s => by rw [Subsingleton.elim r s], fun r => ⟨rfl, rfl⟩, fun n hn _ r => ?_⟩
    rw [← hn, Subsingleton.elim r ⟨0, hp⟩]

/-- One iteration. -/
theorem runs_iter (hp : 0 < p) (m : Fin p → Meas K) (nT nF n : ℕ) (u : Until) (t : Fin p → Table K) :
    ∃ row : Fin p → Row K, Runs (fun r => iterTable p r (m r) nT nF n u (t r)) (fun r => .ok (row r :: t r)) ∧
      (∀ r, row r .nTotal = .fin nT ∧ row r .nFinite = .fin nF) ∧
      (u = .synced → (∀ r, row r .evalsTruth = .fin n) ∧ ∀ r s, row r = row s) ∧
      (u = .acquired → ∀ r, row r .timeAcquire = .fin (m r).timeAcquire ∧ row r .evalsAcquire = .fin (m r).evalsAcquire ∧
        ∀ c, c ∉ [Col.nTotal, .nFinite, .timeAcquire, .evalsAcquire] → row r c = .nan) := by
  unfold iterTable acquired addIteration
  simp only [fill_cons]
  obtain ⟨row0, h0⟩ : ∃ row0 : Fin p → Row K, ∀ r, row0 r = List.foldl (fun (row : Row K) q => Function.update row q.1 q.2) (fun _ => .nan)
      [(Col.nTotal, Ext.fin (nT : K)), (.nFinite, .fin nF), (.timeAcquire, .fin (m r).timeAcquire), (.evalsAcquire, .fin (m r).evalsAcquire)] :=
    ⟨_, fun r => rfl⟩
  by_cases h1 : u = .acquired
  · subst h1
    simp only [if_true]
    refine ⟨row0, ?_, fun r => ?_, fun h => (by cases h), fun _ r => ?_⟩
    · simp only [h0]
      exact Runs.bind (Runs.fin _) (Runs.pure _)
    · rw [h0]; simp [Function.update]
    · rw [h0]
      refine ⟨by simp [Function.update], by simp [Function.update], fun c hc => ?_⟩
      simp only [List.mem_cons, List.not_mem_nil, or_false, not_or] at hc
      simp [Function.update, hc]
  simp only [if_neg h1]
  obtain ⟨row1, h1'⟩ : ∃ row1 : Fin p → Row K, ∀ r, row1 r = if r.val = 0 then List.foldl (fun (row : Row K) q => Function.update row q.1 q.2) (row0 r)
      [(Col.timeTruth, Ext.fin (m r).timeTruth), (.evalsTruth, .fin (n : K))] else row0 r := ⟨_, fun r => rfl⟩
  have e1 : ∀ r : Fin p, (if r.val = 0 then Except.ok (List.foldl (fun (row : Row K) q => Function.update row q.1 q.2) (row0 r)
      [(Col.timeTruth, Ext.fin (m r).timeTruth), (.evalsTruth, .fin (n : K))] :: t r) else (.ok (row0 r :: t r) : Except PErr (Table K))) =
      .ok (row1 r :: t r) := by
    intro r
    rw [h1']
    split_ifs <;> rfl
  have n1 : ∀ r, row1 r .nTotal = .fin nT ∧ row1 r .nFinite = .fin nF := by
    intro r
    rw [h1']
    split_ifs
    · simp [h0, Function.update]
    · simp [h0, Function.update]
  by_cases h2 : u = .evaluated
  · subst h2
    simp only [if_true]
    refine ⟨row1, ?_, n1, fun h => (by cases h), fun h => (by cases h)⟩
    refine Runs.bind (Runs.fin _) ?_
    simp only [← h0, fill_cons, e1]
    exact Runs.bind (Runs.fin _) (Runs.pure _)
  simp only [if_neg h2]
  obtain ⟨row2, h2'⟩ : ∃ row2 : Fin p → Row K, ∀ r, row2 r = if r.val = 0 then List.foldl (fun (row : Row K) q => Function.update row q.1 q.2) (row1 r)
      [(Col.timeFit, Ext.fin (m r).timeFit), (.evalsFit, .fin (m r).evalsFit)] else row1 r := ⟨_, fun r => rfl⟩
  have e2 : ∀ r : Fin p, (if r.val = 0 then Except.ok (List.foldl (fun (row : Row K) q => Function.update row q.1 q.2) (row1 r)
      [(Col.timeFit, Ext.fin (m r).timeFit), (.evalsFit, .fin (m r).evalsFit)] :: t r) else (.ok (row1 r :: t r) : Except PErr (Table K))) =
      .ok (row2 r :: t r) := by
    intro r
    rw [h2']
    split_ifs <;> rfl
  obtain ⟨row3, h3'⟩ : ∃ row3 : Fin p → Row K, ∀ r, row3 r = List.foldl (fun (row : Row K) q => Function.update row q.1 q.2) (row2 r)
      [(Col.timeConvergence, Ext.fin (m r).timeConvergence), (.evalsConvergence, .fin (m r).evalsConvergence), (.critValue, (m r).crit)] := ⟨_, fun r => rfl⟩
  have n3 : ∀ r, row3 r .nTotal = .fin nT ∧ row3 r .nFinite = .fin nF := by
    intro r
    have := n1 r
    rw [h3', h2']
    split_ifs
    · simpa [Function.update] using this
    · simpa [Function.update] using this
  by_cases h3 : u = .checked
  · subst h3
    simp only [if_true]
    refine ⟨row3, ?_, n3, fun h => (by cases h), fun h => (by cases h)⟩
    refine Runs.bind (Runs.fin _) ?_
    simp only [← h0, fill_cons, e1]
    refine Runs.bind (Runs.fin _) ?_
    simp only [fill_cons, e2]
    refine Runs.bind (Runs.fin _) ?_
    simp only [fill_cons, ← h3']
    exact Runs.bind (Runs.fin _) (Runs.pure _)
  simp only [if_neg h3]
  obtain ⟨row', s1, s2, s3, s4⟩ := runs_mpiSync hp row3 t (fun r s => ⟨(n3 r).1.trans (n3 s).1.symm, (n3 r).2.trans (n3 s).2.symm⟩)
  refine ⟨row', ?_, fun r => ⟨(s3 r).1.trans (n3 r).1, (s3 r).2.trans (n3 r).2⟩, fun _ => ⟨?_, s2⟩, fun h => absurd h h1⟩
  · refine Runs.bind (Runs.fin _) ?_
    simp only [← h0, fill_cons, e1]
    refine Runs.bind (Runs.fin _) ?_
    simp only [fill_cons, e2]
    refine Runs.bind (Runs.fin _) ?_
    simp only [fill_cons, ← h3']
    exact Runs.bind (Runs.fin _) s1
  · refine s4 n ?_ ?_
    · simp [h3', h2', h1', Function.update]
    · intro r hr
      have hr' : r.val ≠ 0 := fun h => hr (Fin.ext h)
      simp [h3', h2', h1', h0, hr', Function.update]

variable {G X : Type} {o : Run.Opts} {mc : Bool} {nT nF : G → ℕ} {steps : ℕ → G → Run.Step G X}

/-- **C156**, run.py:922-945: if the fit of an iteration raises, the main process has the number of evaluations of that iteration in its last row, the others have nothing, and nobody has
anything about the fit or the criterion. -/
theorem C156_failed_fit (m : Fin p → Meas K) (s : Run.Step G X) (g : G) (hc : max 1 (o.nAcq / 2) ≤ (s.cands.length : ℤ)) {e : Gpr.Err} (hf : s.fit g = .error e) (t : Fin p → Table K) :
    ∃ row : Fin p → Row K, Runs (fun r => iterTable p r (m r) (nT g) (nF g) s.cands.length (reached o mc s g) (t r)) (fun r => .ok (row r :: t r)) ∧
      ∀ r, row r .nTotal = .fin (nT g) ∧ row r .evalsTruth = (if r.val = 0 then .fin (s.cands.length : K) else .nan) ∧
        row r .timeFit = .nan ∧ row r .evalsFit = .nan ∧ row r .critValue = .nan := by
  have hr : reached o mc s g = .evaluated := by
    unfold reached
    rw [if_neg (not_lt.2 hc), hf]
  rw [hr]
  unfold iterTable acquired addIteration
  simp only [fill_cons, if_true, if_neg (show Until.evaluated ≠ .acquired by decide)]
  obtain ⟨row0, h0⟩ : ∃ row0 : Fin p → Row K, ∀ r, row0 r = List.foldl (fun (row : Row K) q => Function.update row q.1 q.2) (fun _ => .nan)
      [(Col.nTotal, Ext.fin (nT g : K)), (.nFinite, .fin (nF g)), (.timeAcquire, .fin (m r).timeAcquire), (.evalsAcquire, .fin (m r).evalsAcquire)] :=
    ⟨_, fun r => rfl⟩
  refine ⟨fun r => if r.val = 0 then List.foldl (fun (row : Row K) q => Function.update row q.1 q.2) (row0 r)
      [(Col.timeTruth, Ext.fin (m r).timeTruth), (.evalsTruth, .fin (s.cands.length : K))] else row0 r, ?_, fun r => ?_⟩
  · refine Runs.bind (Runs.fin _) ?_
    simp only [← h0, fill_cons]
    have e1 : ∀ r : Fin p, (if r.val = 0 then Except.ok (List.foldl (fun (row : Row K) q => Function.update row q.1 q.2) (row0 r)
        [(Col.timeTruth, Ext.fin (m r).timeTruth), (.evalsTruth, .fin (s.cands.length : K))] :: t r) else (.ok (row0 r :: t r) : Except PErr (Table K))) =
        .ok ((if r.val = 0 then List.foldl (fun (row : Row K) q => Function.update row q.1 q.2) (row0 r)
          [(Col.timeTruth, Ext.fin (m r).timeTruth), (.evalsTruth, .fin (s.cands.length : K))] else row0 r) :: t r) := by
      intro r; split_ifs <;> rfl
    simp only [e1]
    exact Runs.bind (Runs.fin _) (Runs.pure _)
  · dsimp only
    split_ifs <;> simp [h0, Function.update]

/-- What row number `k` of a loop that started at iteration `i` looks like after event `ev`, in all the processes. -/
def RowOf (meas : ℕ → ℕ → Meas K) (i k : ℕ) (R : Fin p → List (Row K)) : Run.Event → Prop
  | .insufficient => ∀ r, ∃ row, (R r)[k]? = some row ∧ row .timeAcquire = .fin (meas (i + k) r).timeAcquire ∧
      row .evalsAcquire = .fin (meas (i + k) r).evalsAcquire ∧ ∀ c, c ∉ [Col.nTotal, .nFinite, .timeAcquire, .evalsAcquire] → row c = .nan
  | .evaluated it n _ _ => it = i + k + 1 ∧ ∃ row, row .evalsTruth = .fin (n : K) ∧ ∀ r, (R r)[k]? = some row

theorem reached_eq (s : Run.Step G X) (st : Run.St G X) : match Run.iterate o mc s st with
    | (st', .next) => st'.iter = st.iter + 1 ∧ (reached o mc s st.gpr = .acquired ∧ st'.trace = .insufficient :: st.trace ∧ st'.gpr = st.gpr ∧ st'.evals = st.evals ∨
        reached o mc s st.gpr = .synced ∧ (∃ a b, st'.trace = .evaluated (st.iter + 1) s.cands.length a b :: st.trace) ∧ s.fit st.gpr = .ok st'.gpr ∧ st'.evals = st.evals ++ s.cands)
    | (st', .break_) => st'.iter = st.iter + 1 ∧ reached o mc s st.gpr = .acquired ∧ st'.trace = .insufficient :: st.trace ∧ st'.gpr = st.gpr ∧ st'.evals = st.evals
    | (st', .raise e) => st'.iter = st.iter + 1 := by
  unfold Run.iterate reached
  dsimp only
  by_cases h1 : (s.cands.length : ℤ) < max 1 (o.nAcq / 2)
  · simp only [if_pos h1]
    by_cases h2 : o.nResamples < ((st.resamples + 1 : ℕ) : ℤ)
    · rw [if_pos h2]; simp
    · rw [if_neg h2]; simp
  · simp only [if_neg h1]
    cases hf : s.fit st.gpr with
    | error e => simp
    | ok g =>
      cases hc : s.conv with
      | false => simp
      | true =>
        cases mc with
        | false => simp
        | true => simp

/-- The tables of all the processes after the loop. -/
theorem runs_loop (hp : 0 < p) (I : G → Prop)
    (hfit : ∀ i g g', I g → (steps i g).fit g = .ok g' → I g' ∧ nT g' = nT g + (steps i g).cands.length) (meas : ℕ → ℕ → Meas K) :
    ∀ (fuel : ℕ) (st : Run.St G X) (t : Fin p → Table K), I st.gpr → ∃ R : Fin p → List (Row K),
      Runs (fun r : Fin p => loopTable o mc nT nF steps meas p r fuel st (t r))
        (fun r => .ok (Run.loop o mc nT nF steps fuel st, (R r).reverse ++ t r)) ∧
      (∀ r l₁ row l₂, R r = l₁ ++ row :: l₂ → row .nTotal = .fin (nT st.gpr + (l₁.map evals).sum)) ∧
      ∀ st' e, Run.loop o mc nT nF steps fuel st = some (st', e) → (∀ r, st'.iter = st.iter + (R r).length) ∧
        ((∀ x, e ≠ .raised x) → (∀ r, (nT st'.gpr : K) = nT st.gpr + ((R r).map evals).sum) ∧ nT st'.gpr + st.evals.length = nT st.gpr + st'.evals.length ∧ I st'.gpr ∧
          ∃ E : List Run.Event, st'.trace = E.reverse ++ st.trace ∧ (∀ r, E.length = (R r).length) ∧
            ∀ k ev, E[k]? = some ev → RowOf meas st.iter k R ev)
  | 0, st, t, hI => by
    refine ⟨fun _ => [], Runs.pure _, fun r l₁ row l₂ h => ?_, fun st' e h => ?_⟩
    · simp at h
    · simp [Run.loop] at h
  | fuel + 1, st, t, hI => by
    unfold loopTable Run.loop
    by_cases hw : 0 < o.maxTotal - nT st.gpr ∧ 0 < o.maxFinite - nF st.gpr ∧ st.hasConverged = false
    · simp only [if_pos hw]
      obtain ⟨row, a1, a2, a3, a4⟩ := runs_iter hp (fun r => meas st.iter r) (nT st.gpr) (nF st.gpr) (steps st.iter st.gpr).cands.length
        (reached o mc (steps st.iter st.gpr) st.gpr) t
      have hit := reached_eq (o := o) (mc := mc) (steps st.iter st.gpr) st
      have one : ∀ r l₁ row' l₂, [row r] = l₁ ++ row' :: l₂ → row' .nTotal = .fin (nT st.gpr + (l₁.map evals).sum) := by
        intro r l₁ row' l₂ h
        cases l₁ with
        | nil => simp at h; rw [← h.1]; simp [(a2 r).1]
        | cons a l => simp at h
      have hskip : reached o mc (steps st.iter st.gpr) st.gpr = .acquired → ∀ R : Fin p → List (Row K), RowOf meas st.iter 0 (fun r => row r :: R r) .insufficient := by
        intro h R r
        obtain ⟨b1, b2, b3⟩ := a4 h r
        exact ⟨row r, rfl, by simpa using b1, by simpa using b2, b3⟩
      have hev : reached o mc (steps st.iter st.gpr) st.gpr = .acquired → ∀ r, evals (row r) = 0 := by
        intro h r
        unfold evals
        rw [(a4 h r).2.2 .evalsTruth (by decide)]
      rcases hx : Run.iterate o mc (steps st.iter st.gpr) st with ⟨st1, c⟩
      rw [hx] at hit
      cases c with
      | next =>
        dsimp only at hit ⊢
        obtain ⟨i1, i2⟩ := hit
        have hI1 : I st1.gpr ∧ (∀ r, (nT st1.gpr : K) = nT st.gpr + evals (row r)) ∧ nT st1.gpr + st.evals.length = nT st.gpr + st1.evals.length := by
          rcases i2 with ⟨j1, -, j2, j3⟩ | ⟨j1, -, j2, j3⟩
          · rw [j2, j3]; exact ⟨hI, fun r => by rw [hev j1 r, add_zero], rfl⟩
          · obtain ⟨k1, k2⟩ := hfit _ _ _ hI j2
            refine ⟨k1, fun r => ?_, ?_⟩
            · unfold evals
              rw [(a3 j1).1 r, k2]
              push_cast; rfl
            · rw [j3, k2, List.length_append]; omega
        obtain ⟨R, b1, b2, b3⟩ := runs_loop hp I hfit meas fuel st1 (fun r => row r :: t r) hI1.1
        refine ⟨fun r => row r :: R r, ?_, ?_, ?_⟩
        · simp only [List.reverse_cons, List.append_assoc, List.singleton_append]
          exact Runs.bind a1 b1
        · intro r l₁ row' l₂ h
          cases l₁ with
          | nil => simp at h; rw [← h.1]; simp [(a2 r).1]
          | cons a l =>
            simp only [List.cons_append, List.cons.injEq] at h
            rw [b2 r l row' l₂ h.2, hI1.2.1 r, ← h.1]
            simp only [List.map_cons, List.sum_cons, Ext.fin.injEq]
            ring
        · intro st' e h
          obtain ⟨c1, c2⟩ := b3 st' e h
          refine ⟨fun r => by rw [c1 r, i1]; simp; omega, fun hne => ?_⟩
          obtain ⟨d1, d5, d6, E, d2, d3, d4⟩ := c2 hne
          refine ⟨fun r => ?_, by have := hI1.2.2; omega, d6, ?_⟩
          · rw [d1 r, hI1.2.1 r]; simp; ring
          obtain ⟨ev0, hev0, htr⟩ : ∃ ev0, RowOf meas st.iter 0 (fun r => row r :: R r) ev0 ∧ st1.trace = ev0 :: st.trace := by
            rcases i2 with ⟨j1, j2, -⟩ | ⟨j1, ⟨x, y, j2⟩, -⟩
            · exact ⟨_, hskip j1 R, j2⟩
            · refine ⟨.evaluated (st.iter + 1) (steps st.iter st.gpr).cands.length x y, ⟨rfl, row ⟨0, hp⟩, (a3 j1).1 _, fun r => ?_⟩, j2⟩
              rw [(a3 j1).2 ⟨0, hp⟩ r]; rfl
          refine ⟨ev0 :: E, by rw [d2, htr]; simp, fun r => by simp [d3 r], fun k ev hk => ?_⟩
          cases k with
          | zero => simp at hk; rw [← hk]; exact hev0
          | succ k =>
            simp only [List.getElem?_cons_succ] at hk
            have := d4 k ev hk
            rw [i1] at this
            cases ev with
            | insufficient =>
              intro r
              obtain ⟨row', e1, e2, e3, e4⟩ := this r
              exact ⟨row', by simpa using e1, by rw [e2]; congr 3; omega, by rw [e3]; congr 3; omega, e4⟩
            | evaluated it n a b =>
              obtain ⟨e1, row', e2, e3⟩ := this
              exact ⟨by omega, row', e2, fun r => by simpa using e3 r⟩
      | break_ =>
        dsimp only at hit ⊢
        obtain ⟨i1, i2, i3, i4, i5⟩ := hit
        refine ⟨fun r => [row r], ?_, one, ?_⟩
        · simp only [List.reverse_cons, List.reverse_nil, List.nil_append, List.singleton_append]
          exact Runs.bind a1 (Runs.pure _)
        · rintro st' e h
          simp only [Option.some.injEq, Prod.mk.injEq] at h
          obtain ⟨rfl, rfl⟩ := h
          refine ⟨fun r => by rw [i1]; rfl, fun _ => ⟨fun r => by rw [i4]; simp [hev i2 r], by rw [i4, i5], by rw [i4]; exact hI, [.insufficient], by rw [i3]; rfl, fun r => rfl, fun k ev hk => ?_⟩⟩
          cases k with
          | zero => simp at hk; rw [← hk]; exact hskip i2 fun _ => []
          | succ k => simp at hk
      | raise x =>
        dsimp only at hit ⊢
        refine ⟨fun r => [row r], ?_, one, ?_⟩
        · simp only [List.reverse_cons, List.reverse_nil, List.nil_append, List.singleton_append]
          exact Runs.bind a1 (Runs.pure _)
        · rintro st' e h
          simp only [Option.some.injEq, Prod.mk.injEq] at h
          obtain ⟨rfl, rfl⟩ := h
          exact ⟨fun r => by rw [hit]; rfl, fun hne => absurd rfl (hne x)⟩
    · simp only [if_neg hw]
      refine ⟨fun _ => [], Runs.pure _, fun r l₁ row l₂ h => by simp at h, ?_⟩
      rintro st' e h
      simp only [Option.some.injEq, Prod.mk.injEq] at h
      obtain ⟨rfl, rfl⟩ := h
      exact ⟨fun r => by simp, fun _ => ⟨fun r => by simp, rfl, hI, [], by simp, fun r => rfl, fun k ev hk => by simp at hk⟩⟩

/-- The first row. -/
theorem runs_init (hp : 0 < p) (m0 : ℕ → Meas K) (n : Option ℕ) :
    ∃ row : Row K, Runs (fun r : Fin p => initTable p r (m0 r) n []) (fun _ => .ok [row]) ∧ row .nTotal = .fin 0 ∧ row .nFinite = .fin 0 ∧
      row .evalsTruth = match n with | some n => .fin (n : K) | none => .nan := by
  obtain ⟨row0, h0⟩ : ∃ row0 : Row K, row0 = List.foldl (fun (row : Row K) q => Function.update row q.1 q.2) (fun _ => .nan)
      [(Col.nTotal, Ext.fin 0), (.nFinite, .fin 0), (.timeAcquire, .fin 0), (.evalsAcquire, .fin 0), (.timeConvergence, .fin 0),
        (.evalsConvergence, .fin 0), (.critValue, .nan)] := ⟨_, rfl⟩
  unfold initTable addIteration
  simp only [fill_cons, ← h0]
  cases n with
  | none => exact ⟨row0, Runs.bind (Runs.fin _) (Runs.pure _), by simp [h0, Function.update], by simp [h0, Function.update], by simp [h0, Function.update]⟩
  | some n =>
    obtain ⟨row2, h2⟩ : ∃ row2 : Fin p → Row K, ∀ r, row2 r = if r.val = 0 then List.foldl (fun (row : Row K) q => Function.update row q.1 q.2) row0
        [(Col.timeTruth, Ext.fin (m0 r).timeTruth), (.evalsTruth, .fin (n : K)), (.timeFit, .fin (m0 r).timeFit), (.evalsFit, .fin (m0 r).evalsFit)] else row0 :=
      ⟨_, fun r => rfl⟩
    have n2 : ∀ r, row2 r .nTotal = .fin 0 ∧ row2 r .nFinite = .fin 0 := by
      intro r
      rw [h2]
      split_ifs <;> simp [h0, Function.update]
    obtain ⟨row', s1, s2, s3, s4⟩ := runs_mpiSync hp row2 (fun _ => []) (fun r s => ⟨(n2 r).1.trans (n2 s).1.symm, (n2 r).2.trans (n2 s).2.symm⟩)
    refine ⟨row' ⟨0, hp⟩, ?_, (s3 _).1.trans (n2 _).1, (s3 _).2.trans (n2 _).2, s4 n ?_ ?_ _⟩
    · refine Runs.bind (Runs.fin _) ?_
      dsimp only
      refine Runs.bind (f := fun r : Fin p => Prog.fin (if r.val = 0 then fill [(.timeTruth, .fin (m0 r).timeTruth), (.evalsTruth, .fin (n : K))] [row0] else .ok [row0]))
        (a := fun r => [if r.val = 0 then List.foldl (fun (row : Row K) q => Function.update row q.1 q.2) row0
          [(Col.timeTruth, Ext.fin (m0 r).timeTruth), (.evalsTruth, .fin (n : K))] else row0]) ?_ ?_
      · have : (fun r : Fin p => (if r.val = 0 then fill [(.timeTruth, .fin (m0 r).timeTruth), (.evalsTruth, .fin (n : K))] [row0] else .ok [row0] : Except PErr (Table K))) =
            fun r => .ok [if r.val = 0 then List.foldl (fun (row : Row K) q => Function.update row q.1 q.2) row0
              [(Col.timeTruth, Ext.fin (m0 r).timeTruth), (.evalsTruth, .fin (n : K))] else row0] := by
          funext r
          split_ifs
          · rw [fill_cons]
          · rfl
        rw [← this]
        exact Runs.fin _
      · refine Runs.bind (a := fun r => [row2 r]) ?_ ?_
        · have : (fun r : Fin p => (if r.val = 0 then fill [(.timeFit, .fin (m0 r).timeFit), (.evalsFit, .fin (m0 r).evalsFit)]
              [if r.val = 0 then List.foldl (fun (row : Row K) q => Function.update row q.1 q.2) row0
                [(Col.timeTruth, Ext.fin (m0 r).timeTruth), (.evalsTruth, .fin (n : K))] else row0]
              else .ok [if r.val = 0 then List.foldl (fun (row : Row K) q => Function.update row q.1 q.2) row0
                [(Col.timeTruth, Ext.fin (m0 r).timeTruth), (.evalsTruth, .fin (n : K))] else row0] : Except PErr (Table K))) = fun r => .ok [row2 r] := by
            funext r
            rw [h2]
            split_ifs
            · rw [fill_cons]; rfl
            · rfl
          rw [← this]
          exact Runs.fin _
        · have : (fun r => (.ok [row' ⟨0, hp⟩] : Except PErr (Table K))) = fun r => .ok (row' r :: []) := by
            funext r; rw [s2 ⟨0, hp⟩ r]
          rw [this]
          exact s1
    · simp [h2, Function.update]
    · intro r hr
      have hr' : r.val ≠ 0 := fun h => hr (Fin.ext h)
      simp [h2, h0, hr', Function.update]

/-- **C156**: the tables of a run that does not raise, in all the processes: the first row (from the initial training, the same in all of them), and then one row
per iteration, oldest first: the row of an iteration that evaluated points is the same in all the processes and has the number of these points; the row of an
iteration with too few candidates has what each of them measured. Column `n_total` has the number of points of the surrogate at the beginning of the iteration, which is
the one at the beginning plus the numbers in `evals_truth` so far. -/
theorem C156_table (hp : 0 < p) (I : G → Prop) (hfit : ∀ i g g', I g → (steps i g).fit g = .ok g' → I g' ∧ nT g' = nT g + (steps i g).cands.length)
    (m0 : ℕ → Meas K) (meas : ℕ → ℕ → Meas K) (n : Option ℕ) (g : G) (hI : I g) (fuel : ℕ) (st : Run.St G X) (e : Run.Exit)
    (h : Run.loop o mc nT nF steps fuel (.start g) = some (st, e)) (hne : ∀ x, e ≠ .raised x) :
    ∃ (row : Row K) (R : Fin p → List (Row K)), row .nTotal = .fin 0 ∧ row .evalsTruth = (match n with | some n => .fin (n : K) | none => .nan) ∧
      Runs (fun r : Fin p => runTable o mc nT nF steps m0 meas n g fuel p r) (fun r => .ok (some (st, e), (row :: R r).reverse)) ∧
      (∀ r l₁ row' l₂, R r = l₁ ++ row' :: l₂ → row' .nTotal = .fin (nT g + (l₁.map evals).sum)) ∧
      (∀ r, (nT st.gpr : K) = nT g + ((R r).map evals).sum) ∧ nT st.gpr = nT g + st.evals.length ∧
      (∀ r, (R r).length = st.iter) ∧ st.trace.length = st.iter ∧ ∀ k ev, st.trace.reverse[k]? = some ev → RowOf meas 0 k R ev := by
  obtain ⟨row, a1, a2, -, a3⟩ := runs_init hp m0 n
  obtain ⟨R, b1, b2, b3⟩ := runs_loop (o := o) (mc := mc) (nF := nF) hp I hfit meas fuel (.start g) (fun _ : Fin p => [row]) hI
  obtain ⟨c1, c2⟩ := b3 st e h
  obtain ⟨d1, d2, -, E, d3, d4, d5⟩ := c2 hne
  have hE : st.trace = E.reverse := by rw [d3]; simp [Run.St.start]
  refine ⟨row, R, a2, a3, ?_, b2, d1, ?_, fun r => ?_, ?_, ?_⟩
  · rw [h] at b1
    simp only [List.reverse_cons]
    exact Runs.bind a1 b1
  · simpa [Run.St.start] using d2
  · rw [c1 r]; simp [Run.St.start]
  · rw [c1 ⟨0, hp⟩, ← d4 ⟨0, hp⟩, hE]; simp [Run.St.start]
  · rw [hE, List.reverse_reverse]
    exact d5

/-- **C156**: if in no iteration there were too few candidates, the tables of all the processes are equal. -/
theorem C156_same (hp : 0 < p) (I : G → Prop) (hfit : ∀ i g g', I g → (steps i g).fit g = .ok g' → I g' ∧ nT g' = nT g + (steps i g).cands.length)
    (m0 : ℕ → Meas K) (meas : ℕ → ℕ → Meas K) (n : Option ℕ) (g : G) (hI : I g) (fuel : ℕ) (st : Run.St G X) (e : Run.Exit)
    (h : Run.loop o mc nT nF steps fuel (.start g) = some (st, e)) (hne : ∀ x, e ≠ .raised x) (hs : Run.Event.insufficient ∉ st.trace) :
    ∃ T : Table K, Runs (fun r : Fin p => runTable o mc nT nF steps m0 meas n g fuel p r) (fun _ => .ok (some (st, e), T)) := by
  obtain ⟨row, R, -, -, a1, -, -, -, a2, a3, a4⟩ := C156_table hp I hfit m0 meas n g hI fuel st e h hne
  have : ∀ r, R r = R ⟨0, hp⟩ := by
    intro r
    refine List.ext_getElem? fun k => ?_
    by_cases hk : k < st.iter
    · have hk' : k < st.trace.reverse.length := by simpa [a3] using hk
      have := a4 k _ (List.getElem?_eq_getElem hk')
      have hm : st.trace.reverse[k] ∈ st.trace := List.mem_reverse.1 (List.getElem_mem hk')
      revert this hm
      cases st.trace.reverse[k] with
      | insufficient => intro _ hm; exact absurd hm hs
      | evaluated it n a b =>
        rintro ⟨-, row, -, hr⟩ -
        rw [hr r, hr ⟨0, hp⟩]
    · rw [List.getElem?_eq_none (by rw [a2]; omega), List.getElem?_eq_none (by rw [a2]; omega)]
  refine ⟨(row :: R ⟨0, hp⟩).reverse, ?_⟩
  simp only [this] at a1
  exact a1

/-- **C156** is false after an iteration with too few candidates: if its acquisition took different times in two processes, their tables stay different. -/
theorem C156_skipped (hp : 0 < p) (I : G → Prop) (hfit : ∀ i g g', I g → (steps i g).fit g = .ok g' → I g' ∧ nT g' = nT g + (steps i g).cands.length)
    (m0 : ℕ → Meas K) (meas : ℕ → ℕ → Meas K) (n : Option ℕ) (g : G) (hI : I g) (fuel : ℕ) (st : Run.St G X) (e : Run.Exit)
    (h : Run.loop o mc nT nF steps fuel (.start g) = some (st, e)) (hne : ∀ x, e ≠ .raised x) (k : ℕ) (hk : st.trace.reverse[k]? = some .insufficient)
    (r s : Fin p) (hm : (meas k r).timeAcquire ≠ (meas k s).timeAcquire) :
    ∃ T : Fin p → Table K, Runs (fun r : Fin p => runTable o mc nT nF steps m0 meas n g fuel p r) (fun r => .ok (some (st, e), T r)) ∧ T r ≠ T s := by
  obtain ⟨row, R, -, -, a1, -, -, -, a2, a3, a4⟩ := C156_table hp I hfit m0 meas n g hI fuel st e h hne
  refine ⟨_, a1, fun heq => hm ?_⟩
  have heq : R r = R s := by
    have := List.reverse_injective heq
    simpa using this
  obtain ⟨row1, b1, b2, -⟩ := a4 k _ hk r
  obtain ⟨row2, c1, c2, -⟩ := a4 k _ hk s
  rw [heq, c1] at b1
  cases b1
  rw [c2] at b2
  simpa using b2.symm

end

/-! ## With the modelled regressor -/

section
open Gpr Run
variable {P PX Θ K : Type} [Field K] [LinearOrder K] [IsStrictOrderedRing K] {p : ℕ}

theorem init_count {cfg : Cfg P PX Θ K} (hc : CfgOk cfg) (px : PX) (py : PreY K) (s : Noise K) {nInitial maxInitial : ℕ} {verbose : ℤ}
    {draw : ℕ → ℕ → ℕ → P × Ext K} (hg : ∀ i r j, Good (draw i r j).2) {acc : List (P × Ext K)} {g : State P PX Θ K}
    (h : initialTraining cfg p nInitial maxInitial verbose draw (State.init px py s) = .ok (acc, g)) :
    Inv cfg g ∧ nTotal cfg g = g.yAll.length ∧ g.yAll.length = acc.length := by
  unfold initialTraining at h
  dsimp only at h
  split_ifs at h with hk hv
  · cases h
    refine ⟨inv_init cfg px py s, ?_, rfl⟩
    unfold nTotal; simp [State.init, Svm.init]
  · have hz : (State.init px py s : State P PX Θ K).xTrain.zip (State.init px py s : State P PX Θ K).yTrain = [] := rfl
    rw [hz] at h
    split at h
    · simp at h
    · rename_i acc' heq
      have hgood : ∀ q ∈ acc', Good q.2 := by
        have h3 : ∀ k n m acc' b, initRounds cfg p k n draw m 0 [] = (acc', b) → ∀ q ∈ acc', Good q.2 := by
          intro k n m acc' b e
          have := (initRounds_spec cfg p k n draw m 0 []).2.2 (fun q => Good q.2) (by simp) hg
          rw [e] at this
          exact this
        exact h3 _ _ _ _ _ heq
      split at h
      · simp at h
      · rename_i g' happ
        cases h
        have hgc : ∀ y ∈ (acc.map Prod.snd), Good y := by
          intro y hy
          rw [List.mem_map] at hy
          obtain ⟨q, hq, rfl⟩ := hy
          exact hgood q hq
        have hcall : ∀ y ∈ ({ batch := some (acc.map Prod.fst, acc.map Prod.snd) } : Call P K).ys, Good y := by
          simpa [Call.ys] using hgc
        have hi := inv_step hc (fun _ => hcall) (inv_init cfg px py s) happ
        have hd := append_data hc (st := State.init px py s) (by simpa [State.init] using fun _ => hcall) rfl happ
        refine ⟨hi, ?_, ?_⟩
        · cases hu : cfg.useSvm with
          | true => exact (C10_infinite_complement hc hu (inv_init cfg px py s) hcall (Or.inl rfl) happ).2.2
          | false => exact nTotal_of_noSvm hu hi
        · rw [hd.2.1]; simp [State.init, Call.ys]

theorem step_count {cfg : Cfg P PX Θ K} (hc : CfgOk cfg) (truth : P → Ext K) (ht : ∀ x, Good (truth x)) (cs : List P) (f : FitArg) (a b : Bool)
    (g1 g2 : State P PX Θ K) (hI : Inv cfg g1 ∧ nTotal cfg g1 = g1.yAll.length) (hf : (regressorStep cfg truth cs f a b).fit g1 = .ok g2) :
    (Inv cfg g2 ∧ nTotal cfg g2 = g2.yAll.length) ∧ nTotal cfg g2 = nTotal cfg g1 + cs.length := by
  obtain ⟨hi, hn⟩ := hI
  simp only [regressorStep] at hf
  split at hf
  · rename_i g' happ
    cases hf
    have hcall : ∀ y ∈ ({ batch := some (cs, cs.map truth), fit := f } : Call P K).ys, Good y := by
      intro y hy
      simp only [Call.ys, Option.map_some, Option.getD_some, List.mem_map] at hy
      obtain ⟨x, -, rfl⟩ := hy
      exact ht x
    have hi' := inv_step hc (fun _ => hcall) hi happ
    have hd := append_data hc (by
      intro hu y hy
      rcases List.mem_append.1 hy with hy | hy
      · exact hi.2.1 hu y hy
      · exact hcall y hy) hi.1 happ
    have hnt : nTotal cfg g2 = g2.yAll.length := by
      cases hu : cfg.useSvm with
      | true => exact (C10_infinite_complement hc hu hi hcall (Or.inl rfl) happ).2.2
      | false => exact nTotal_of_noSvm hu hi'
    refine ⟨⟨hi', hnt⟩, ?_⟩
    rw [hnt, hn, hd.2.1]
    simp [Call.ys]
  · simp at hf

/-- **C156** for a whole run with a new surrogate: in every process the table has one row per iteration and one for the initial training; column `n_total` is the sum of the
previous entries of `evals_truth`, and all of them add up to the number of points at which the true posterior was evaluated, which is the number of points in the
surrogate. -/
theorem C156_whole_run {cfg : Cfg P PX Θ K} (hc : CfgOk cfg) (px : PX) (py : PreY K) (s : Noise K) {nInitial maxInitial : ℕ} (hp : 0 < p) {verbose : ℤ}
    {draw : ℕ → ℕ → ℕ → P × Ext K} (hg : ∀ i r j, Good (draw i r j).2) {acc : List (P × Ext K)} {g : State P PX Θ K}
    (h : initialTraining cfg p nInitial maxInitial verbose draw (State.init px py s) = .ok (acc, g))
    (o : Opts) (mc : Bool) (truth : P → Ext K) (ht : ∀ x, Good (truth x)) (cands : ℕ → State P PX Θ K → List P) (fit : ℕ → FitArg)
    (conv diag : ℕ → State P PX Θ K → Bool) (m0 : ℕ → Meas K) (meas : ℕ → ℕ → Meas K) (fuel : ℕ) (st : Run.St (State P PX Θ K) P) (e : Exit)
    (hl : loop o mc (nTotal cfg) (fun g => g.yTrain.length) (fun i g => regressorStep cfg truth (cands i g) (fit i) (conv i g) (diag i g)) fuel (.start g) =
      some (st, e)) (hne : ∀ x, e ≠ .raised x) :
    ∃ T : Fin p → List (Row K),
      Runs (fun r : Fin p => runTable o mc (nTotal cfg) (fun g => g.yTrain.length)
        (fun i g => regressorStep cfg truth (cands i g) (fit i) (conv i g) (diag i g)) m0 meas (firstRow p nInitial (State.init px py s : State P PX Θ K) acc) g fuel p r)
        (fun r => .ok (some (st, e), (T r).reverse)) ∧
      (∀ r, (T r).length = st.iter + 1) ∧
      (∀ r l₁ row l₂, T r = l₁ ++ row :: l₂ → row .nTotal = .fin ((l₁.map evals).sum)) ∧
      ∀ r, ((T r).map evals).sum = (acc.length + st.evals.length : ℕ) ∧ st.gpr.yAll.length = acc.length + st.evals.length := by
  obtain ⟨h1, h2, h3⟩ := init_count hc px py s hg h
  have hstep : ∀ i g1 g2, (Inv cfg g1 ∧ nTotal cfg g1 = g1.yAll.length) → (regressorStep cfg truth (cands i g1) (fit i) (conv i g1) (diag i g1)).fit g1 = .ok g2 →
      (Inv cfg g2 ∧ nTotal cfg g2 = g2.yAll.length) ∧ nTotal cfg g2 = nTotal cfg g1 + (cands i g1).length :=
    fun i g1 g2 hI hf => step_count hc truth ht _ _ _ _ g1 g2 hI hf
  obtain ⟨row, R, a1, a2, a3, a4, a5, a6, a7, -⟩ := C156_table (p := p) (o := o) (mc := mc) (nF := fun g : State P PX Θ K => g.yTrain.length)
    (steps := fun i g => regressorStep cfg truth (cands i g) (fit i) (conv i g) (diag i g)) hp
    (fun g => Inv cfg g ∧ nTotal cfg g = g.yAll.length) hstep m0 meas (firstRow p nInitial (State.init px py s : State P PX Θ K) acc) g ⟨h1, h2⟩ fuel st e hl hne
  obtain ⟨R', b1, -, b3⟩ := runs_loop (p := p) (o := o) (mc := mc) (nF := fun g : State P PX Θ K => g.yTrain.length)
    (steps := fun i g => regressorStep cfg truth (cands i g) (fit i) (conv i g) (diag i g)) hp
    (fun g => Inv cfg g ∧ nTotal cfg g = g.yAll.length) hstep meas fuel (.start g) (fun _ => []) ⟨h1, h2⟩
  have hI := ((b3 st e hl).2 hne).2.2.1
  have he : evals row = (acc.length : K) := by
    unfold evals
    rw [a2]
    unfold firstRow
    by_cases hk : Mpi.ceilDiv (nInitial - (State.init px py s : State P PX Θ K).yTrain.length) p = 0
    · rw [if_pos hk]
      unfold initialTraining at h
      simp only [if_pos hk] at h
      split_ifs at h
      cases h
      simp
    · rw [if_neg hk]
  refine ⟨fun r => row :: R r, a3, fun r => by simp [a7 r], fun r l₁ row' l₂ hsplit => ?_, fun r => ⟨?_, ?_⟩⟩
  · cases l₁ with
    | nil => simp at hsplit; rw [← hsplit.1, a1]; simp
    | cons a l =>
      simp only [List.cons_append, List.cons.injEq] at hsplit
      rw [a4 r l row' l₂ hsplit.2, ← hsplit.1, h2, h3]
      simp [he]
  · have h5 := a5 r
    rw [List.map_cons, List.sum_cons, he]
    rw [a6, h2, h3] at h5
    push_cast at h5 ⊢
    exact (h5).symm
  · rw [← hI.2, a6, h2, h3]

end

/-! ## Examples -/

open Gpr Run in
/-- **C156** is false for a surrogate that has points already: they are counted as evaluations of the truth. Two points are evaluated here, four reported. -/
theorem C156_pretrained_counterexample (m0 : ℕ → Meas ℚ) (meas : ℕ → ℕ → Meas ℚ) :
    ∃ (g : State ℕ Unit ℕ ℚ), initialTraining (exCfg true) 1 4 8 3 (fun _ _ j => (10 + j, .negInf)) exPre =
        .ok ([(1, .fin 1), (2, .fin 2), (10, .negInf), (11, .negInf)], g) ∧
      ∃ row : Row ℚ, row .evalsTruth = .fin 4 ∧ row .nTotal = .fin 0 ∧
        Runs (fun r : Fin 1 => initTable 1 r (m0 r) (firstRow 1 4 exPre [(1, .fin 1), (2, .fin 2), (10, .negInf), (11, .negInf)]) []) (fun _ => .ok [row]) := by
  have h : (initialTraining (exCfg true) 1 4 8 3 (fun _ _ j => (10 + j, .negInf)) exPre).toOption.map (fun q => q.1) =
      some [(1, .fin 1), (2, .fin 2), (10, .negInf), (11, .negInf)] := by decide +kernel
  rcases hx : initialTraining (exCfg true) 1 4 8 3 (fun _ _ j => (10 + j, .negInf)) exPre with e | ⟨acc, g⟩
  · rw [hx] at h; simp [Except.toOption] at h
  · rw [hx] at h
    simp [Except.toOption] at h
    obtain ⟨row, a1, a2, -, a3⟩ := runs_init (p := 1) (by decide) m0 (some 4)
    have hf : firstRow 1 4 exPre [(1, .fin 1), (2, .fin 2), (10, .negInf), (11, .negInf)] = some 4 := by decide +kernel
    exact ⟨g, by rw [h], row, by simpa using a3, a2, by rw [hf]; exact a1⟩

section Examples
open Run

/-- A surrogate that is its number of points; two candidates in each iteration but the second, which has none. -/
def exSteps (i g : ℕ) : Step ℕ ℕ := ⟨if i = 1 then [] else [10 * i, 10 * i + 1], fun g => .ok (if i = 1 then g else g + 2), false, true⟩

theorem ex_loop : loop ⟨3, 6, 9, 9, 2, 1, 1, 3⟩ true id id exSteps 10 (.start 5) =
    some (⟨9, false, 0, 3, [.evaluated 3 2 false false, .insufficient, .evaluated 1 2 false false], [0, 1, 20, 21]⟩, .finished) := rfl

theorem ex_fit (i g g' : ℕ) (h : (exSteps i g).fit g = .ok g') : g' = g + (exSteps i g).cands.length := by
  unfold exSteps at h ⊢
  split_ifs at h ⊢ with hi
  · simp at h; simp [hi, h]
  · simp [hi] at h ⊢; omega

def exMeas (i r : ℕ) : Meas ℚ := ⟨10 * i + r, 7, 1, 2, 3, 4, 5, .nan⟩

/-- Two processes. The table of the main process has as many evaluations as there were (5 initial ones and 4), but the two tables differ. -/
theorem C156_skipped_counterexample : ∃ T : Fin 2 → Table ℚ,
    Runs (fun r : Fin 2 => runTable ⟨3, 6, 9, 9, 2, 1, 1, 3⟩ true id id exSteps (exMeas 0) exMeas (some 5) 5 10 2 r)
      (fun r => .ok (some (⟨9, false, 0, 3, [.evaluated 3 2 false false, .insufficient, .evaluated 1 2 false false], [0, 1, 20, 21]⟩, .finished), T r)) ∧
      T 0 ≠ T 1 :=
  C156_skipped (by decide) (fun _ => True) (fun i g g' _ h => ⟨trivial, ex_fit i g g' h⟩) (exMeas 0) exMeas (some 5) 5 trivial 10 _ _ ex_loop (by simp) 1 rfl 0 1
    (by norm_num [exMeas])

/-- `C156_failed_fit`: two processes, two points evaluated, the fit raises. -/
example : ∃ row : Fin 2 → Row ℚ, Runs (fun r : Fin 2 => iterTable 2 r (exMeas 0 r) 5 4 2 (reached ⟨3, 6, 9, 9, 2, 1, 1, 3⟩ true (⟨[1, 2], fun _ => .error .linAlgError, false, true⟩ : Step ℕ ℕ) 5) [])
    (fun r => .ok [row r]) ∧ row 0 .evalsTruth = .fin 2 ∧ row 1 .evalsTruth = .nan := by
  obtain ⟨row, h1, h2⟩ := C156_failed_fit (o := ⟨3, 6, 9, 9, 2, 1, 1, 3⟩) (mc := true) (nT := fun _ => 5) (nF := fun _ => 4) (fun r : Fin 2 => exMeas 0 r)
    (⟨[1, 2], fun _ => .error .linAlgError, false, true⟩ : Step ℕ ℕ) 5 (by decide) rfl (fun _ => [])
  exact ⟨row, h1, by simpa using (h2 0).2.1, by simpa using (h2 1).2.1⟩

/-- Without the second iteration. -/
example : ∃ T : Table ℚ, Runs (fun r : Fin 2 => runTable ⟨3, 6, 9, 9, 2, 1, 1, 3⟩ true id id
      (fun i g => (⟨[10 * i, 10 * i + 1], fun g => .ok (g + 2), false, true⟩ : Step ℕ ℕ)) (exMeas 0) exMeas (some 5) 5 10 2 r)
    (fun _ => .ok (some (⟨9, false, 0, 2, [.evaluated 2 2 false false, .evaluated 1 2 false false], [0, 1, 10, 11]⟩, .finished), T)) :=
  C156_same (by decide) (fun _ => True) (fun i g g' _ h => by simp at h; exact ⟨trivial, by simp [← h]⟩) (exMeas 0) exMeas (some 5) 5 trivial 10 _ _ rfl
    (by simp) (by simp)

example : ∃ (row : Row ℚ) (R : Fin 2 → List (Row ℚ)), row .nTotal = .fin 0 ∧ row .evalsTruth = .fin 5 ∧
    Runs (fun r : Fin 2 => runTable ⟨3, 6, 9, 9, 2, 1, 1, 3⟩ true id id exSteps (exMeas 0) exMeas (some 5) 5 10 2 r)
      (fun r => .ok (some (⟨9, false, 0, 3, [.evaluated 3 2 false false, .insufficient, .evaluated 1 2 false false], [0, 1, 20, 21]⟩, .finished), (row :: R r).reverse)) ∧
    ∀ r, (R r).length = 3 ∧ (9 : ℚ) = 5 + ((R r).map evals).sum := by
  obtain ⟨row, R, a1, a2, a3, -, a4, -, a5, -⟩ := C156_table (p := 2) (by decide) (fun _ => True) (fun i g g' _ h => ⟨trivial, ex_fit i g g' h⟩) (exMeas 0) exMeas (some 5) 5
    trivial 10 _ _ ex_loop (by simp)
  exact ⟨row, R, a1, by simpa using a2, a3, fun r => ⟨a5 r, by simpa using a4 r⟩⟩

/-- The whole run of C32: 8 initial evaluations, then 2 twice. -/
example : ∃ acc g, initialTraining (Gpr.exCfg true) 2 3 6 3 exDraw Gpr.ex0 = .ok (acc, g) ∧ ∃ st, ∃ T : Fin 2 → List (Row ℚ),
    Runs (fun r : Fin 2 => runTable ⟨3, 6, 11, 11, 2, 1, 1, 2⟩ true (Gpr.nTotal (Gpr.exCfg true)) (fun g => g.yTrain.length)
      (fun i g => regressorStep (Gpr.exCfg true) (fun x => if x % 2 = 0 then .fin x else .negInf) [1000 + i, 2000 + 2 * i] (.yes none) false false) (exMeas 0) exMeas
      (firstRow 2 3 Gpr.ex0 acc) g 100 2 r) (fun r => .ok (some (st, .finished), (T r).reverse)) ∧ ∀ r, ((T r).map evals).sum = 12 := by
  rcases h : initialTraining (Gpr.exCfg true) 2 3 6 3 exDraw Gpr.ex0 with e | ⟨acc, g⟩
  · exact absurd (show (initialTraining (Gpr.exCfg true) 2 3 6 3 exDraw Gpr.ex0).isOk = true by decide +kernel)
      (by rw [h]; simp [Except.isOk, Except.toBool])
  · have hl : (loop ⟨3, 6, 11, 11, 2, 1, 1, 2⟩ true (Gpr.nTotal (Gpr.exCfg true)) (fun g => g.yTrain.length)
        (fun i g => regressorStep (Gpr.exCfg true) (fun x => if x % 2 = 0 then .fin x else .negInf) [1000 + i, 2000 + 2 * i] (.yes none) false false) 100 (.start g)).map
        (fun q => (acc.length + q.1.evals.length, q.2)) = some (12, .finished) := by
      have hh : ((initialTraining (Gpr.exCfg true) 2 3 6 3 exDraw Gpr.ex0).toOption.bind fun q =>
        (loop ⟨3, 6, 11, 11, 2, 1, 1, 2⟩ true (Gpr.nTotal (Gpr.exCfg true)) (fun g => g.yTrain.length)
          (fun i g => regressorStep (Gpr.exCfg true) (fun x => if x % 2 = 0 then .fin x else .negInf) [1000 + i, 2000 + 2 * i] (.yes none) false false) 100 (.start q.2)).map
          (fun q' => (q.1.length + q'.1.evals.length, q'.2))) = some (12, .finished) := by decide +kernel
      rw [h] at hh
      exact hh
    rcases hx : loop ⟨3, 6, 11, 11, 2, 1, 1, 2⟩ true (Gpr.nTotal (Gpr.exCfg true)) (fun g => g.yTrain.length)
        (fun i g => regressorStep (Gpr.exCfg true) (fun x => if x % 2 = 0 then .fin x else .negInf) [1000 + i, 2000 + 2 * i] (.yes none) false false) 100 (.start g) with _ | ⟨st, e⟩
    · rw [hx] at hl; simp at hl
    · rw [hx] at hl
      simp only [Option.map_some, Option.some.injEq, Prod.mk.injEq] at hl
      obtain ⟨hl1, rfl⟩ := hl
      obtain ⟨T, a1, -, -, a2⟩ := C156_whole_run (p := 2) (Gpr.exCfg_ok true) () (.aff 0 1) (.scalar 1) (by decide) exDraw_good h ⟨3, 6, 11, 11, 2, 1, 1, 2⟩ true
        (fun x => if x % 2 = 0 then .fin x else .negInf) (fun x => by split_ifs <;> first | exact .inl rfl | exact .inr ⟨_, rfl⟩)
        (fun i _ => [1000 + i, 2000 + 2 * i]) (fun _ => .yes none) (fun _ _ => false) (fun _ _ => false) (exMeas 0) exMeas 100 st .finished hx (by simp)
      exact ⟨acc, g, rfl, st, T, a1, fun r => by rw [(a2 r).1, hl1]; norm_num⟩

end Examples

end GPry.ProgRun
