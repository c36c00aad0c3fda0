import Verif.RunProps
import Verif.TruthProps
import Verif.GprEx
import Verif.McSampProps
import Verif.BatchProps
import Verif.KernelHypProps
import Verif.RunnerOutProps

set_option linter.all false

/-!
# Refusals and special cases, continued (C13, C58, C68, C84, C92, C99, C120)
-/

namespace GPry.Run

/-- **C68**: when the number of points per acquisition is changed. The remainder of the division by the number of processes is dropped if it is at
most a fifth of the number asked for; otherwise the number is kept. -/
theorem C68_rounding {d size : ℕ} {u : UserOpts} {o : Opts} (h : construct d size u = .ok o) :
    let req := min 1000000000 (u.nAcq.getD d)
    (5 * (req % size) ≤ req → o.nAcq = size * (req / size)) ∧ (req < 5 * (req % size) → o.nAcq = req) := by
  unfold construct at h
  dsimp only at h
  split_ifs at h with h1 h2 h3 h4 h5
  cases h
  dsimp only
  show (_ → roundAcq (cap (u.nAcq.getD d)) size = _) ∧ (_ → roundAcq (cap (u.nAcq.getD d)) size = _)
  rw [show min 1000000000 (u.nAcq.getD (d : ℤ)) = cap (u.nAcq.getD d) from rfl]
  generalize cap (u.nAcq.getD d) = n
  have e := Int.mul_ediv_add_emod n size
  unfold roundAcq
  dsimp only
  split_ifs with hr
  · exact ⟨fun _ => by omega, fun _ => by omega⟩
  · refine ⟨fun h => ?_, fun _ => rfl⟩
    have : n % (size : ℤ) = 0 := by
      by_contra hc
      exact hr ⟨h, hc⟩
    omega

/-- C68: 12 points for 5 processes become 10, 8 points for 5 processes stay. -/
example : ∃ o o', construct 2 5 { nAcq := some 12 } = .ok o ∧ o.nAcq = 10 ∧ construct 2 5 { nAcq := some 8 } = .ok o' ∧ o'.nAcq = 8 :=
  ⟨⟨6, 84, 197, 197, 10, 2, 1, 2⟩, ⟨6, 84, 197, 197, 8, 2, 1, 2⟩, by decide +kernel⟩

end GPry.Run

namespace GPry.Truth

/-- **C84**: reference bounds are accepted exactly if there is one entry per parameter, each of them missing or made of two numbers; missing
entries are those of the prior. -/
theorem C84_reference {B : Type*} (prior : List (B × B)) (l : List (Option (List B))) :
    ((∃ r, setRef prior (some l) = .ok r) ↔ l.length = prior.length ∧ ∀ v, some v ∈ l → v.length = 2) ∧
    (∀ e, setRef prior (some l) = .error e → e = .typeError) ∧
    (∀ r, setRef prior (some l) = .ok r → r.1 = l ∧ r.2.length = prior.length ∧
      (∀ (i : ℕ) (b : B × B), prior[i]? = some b → l[i]? = some none → r.2[i]? = some [b.1, b.2]) ∧
      ∀ (i : ℕ) (v : List B), l[i]? = some (some v) → r.2[i]? = some v) ∧
    setRef prior none = .ok (List.replicate prior.length none, prior.map fun b => [b.1, b.2]) := by
  have hany : (l.any fun v => match v with
      | some v => decide (v.length ≠ 2)
      | none => false) = true ↔ ¬ ∀ v, some v ∈ l → v.length = 2 := by
    rw [List.any_eq_true]
    constructor
    · rintro ⟨v, hv, h⟩ hc
      cases v with
      | none => simp at h
      | some v => simp [hc v hv] at h
    · intro h
      push Not at h
      obtain ⟨v, hv, h⟩ := h
      exact ⟨some v, hv, by simpa using h⟩
  classical
  have heq : setRef prior (some l) = if l.length ≠ prior.length then .error .typeError else
      if ¬ ∀ v, some v ∈ l → v.length = 2 then .error .typeError
      else .ok (l, List.zipWith (fun v b => v.getD [b.1, b.2]) l prior) := by
    unfold setRef
    dsimp only
    by_cases h1 : l.length = prior.length
    · rw [if_neg (not_not.2 h1), if_neg (not_not.2 h1)]
      refine if_congr hany rfl rfl
    · rw [if_pos h1, if_pos h1]
  rw [heq]
  by_cases h1 : l.length = prior.length
  · rw [if_neg (not_not.2 h1)]
    by_cases h2 : ∀ v, some v ∈ l → v.length = 2
    · rw [if_neg (not_not.2 h2)]
      refine ⟨⟨fun _ => ⟨h1, h2⟩, fun _ => ⟨_, rfl⟩⟩, by simp, ?_, rfl⟩
      rintro r hr
      cases hr
      refine ⟨rfl, by simp [h1], fun i b hb hl => ?_, fun i v hl => ?_⟩
      · simp [List.getElem?_zipWith, hb, hl]
      · have hi : i < prior.length := by
          rw [← h1]
          by_contra hc
          rw [List.getElem?_eq_none (by omega)] at hl
          simp at hl
        simp [List.getElem?_zipWith, hl, List.getElem?_eq_getElem hi]
    · rw [if_pos h2]
      exact ⟨⟨by simp, fun h => absurd h.2 h2⟩, by simp, by simp, rfl⟩
  · rw [if_pos h1]
    exact ⟨⟨by simp, fun h => absurd h.1 h1⟩, by simp, by simp, rfl⟩

/-- C84: one entry given, one missing; and an entry of three numbers. -/
example : setRef [(0, 10), (0, 20)] (some [none, some [4, 5]]) = .ok ([none, some [4, 5]], [[0, 10], [4, 5]]) ∧
    setRef [(0, 10)] (some [some [1, 2, 3]]) = .error .typeError := ⟨rfl, rfl⟩

end GPry.Truth

namespace GPry.Gpr

variable {P PX Θ K : Type*} [Field K] [LinearOrder K] [IsStrictOrderedRing K]

/-- **C13**: noise levels in another number than the points are refused with a ValueError, and nothing changes. -/
theorem C13_wrong_length (cfg : Cfg P PX Θ K) (st : State P PX Θ K) (c : Call P K) (ks : List K) (hn : c.noise = some (.array ks))
    (hl : ks.length ≠ c.ys.length) : append cfg st c = (st, some .valueError) := by
  have hv : ∀ n, ks.length ≠ n → validateNoise st.noise (some (.array ks)) n = .error .valueError := by
    intro n h
    unfold validateNoise
    split_ifs
    · rfl
    · dsimp only
      rw [if_pos h]
  unfold append
  split
  · rfl
  · dsimp only
    split_ifs
    · rfl
    all_goals simp only [hn, hv _ hl]

example : append (exCfg true) ex0 { batch := some ([1, 2], [.fin 2, .fin 3]), noise := some (.array [1]) } = (ex0, some .valueError) :=
  C13_wrong_length _ _ _ [1] rfl (by decide)

end GPry.Gpr

namespace GPry.McSamp

/-- **C92**: the folders of successive runs are numbered without gaps from the initial index. -/
theorem C92_numbered (join : Cobaya.Str → Cobaya.Str) (k i j : ℕ) (hj : j < k) :
    (outputFolders join k i)[j]? = some (if (join (Nat.toDigits 10 (i + j))).getLast? = some '/' then join (Nat.toDigits 10 (i + j))
      else join (Nat.toDigits 10 (i + j)) ++ ['/']) := by
  induction k generalizing i j with
  | zero => omega
  | succ k ih =>
    rw [outputFolders]
    cases j with
    | zero => simp [outputFolder]
    | succ j =>
      rw [List.getElem?_cons_succ, ih _ j (by omega)]
      simp [outputFolder, Nat.add_comm, Nat.add_left_comm]

example : (outputFolders (fun s => Cobaya.str "/t/" ++ s) 3 9)[2]? = some (Cobaya.str "/t/11/") := by
  rw [C92_numbered _ _ _ _ (by omega)]
  decide +kernel

end GPry.McSamp

namespace GPry.Batch

variable {S P B K : Type} [LT K] [DecidableLT K] [Neg K]

/-- **C58**: if no restart has found a finite value of the acquisition function, the result of the last one is taken. -/
theorem C58_last (c : Cfg S P B K) (s : S) (cands : List (P × Ext K)) (q : P × Ext K) (h : ∀ r ∈ cands ++ [q], r.2.isFinite = false) :
    choose c true s (cands ++ [q]) = .ok (s, q.1, c.predict s q.1, q.2.neg) := by
  have hp : pick ((cands ++ [q]).map Prod.snd) = some cands.length := by
    unfold pick
    rw [if_neg, if_neg]
    · simp
    · simp
    · rw [List.any_eq_true]
      rintro ⟨v, hv, hf⟩
      obtain ⟨r, hr, rfl⟩ := List.mem_map.1 hv
      rw [h r hr] at hf
      cases hf
  unfold choose
  rw [hp]
  dsimp only
  rw [List.getElem?_append_right le_rfl]
  simp

example (env : Env Unit ℕ Unit ℚ) :
    choose ⟨env, 2, fun _ _ => [], fun _ x => .fin x, fun s _ _ => .ok s⟩ true () [(3, .posInf), (4, .nan)] = .ok ((), 4, .fin 4, .nan) :=
  C58_last _ () [(3, .posInf)] (4, .nan) (by simp [Ext.isFinite])

end GPry.Batch

namespace GPry.KernelHyp

variable {K : Type*} [Field K] [LinearOrder K] [IsStrictOrderedRing K]

/-- **C99**: asking the other kernels for their hyperparameters, bounds or `theta` raises TypeError. -/
theorem C99_other_error (th : List K) : (Kern.other : Kern K).hypers = .error .typeError ∧ (Kern.other : Kern K).bounds = .error .typeError ∧
    (Kern.other : Kern K).theta = .error .typeError ∧ (Kern.other : Kern K).setTheta th = .error .typeError ∧
    ∀ k : Kern K, (Kern.sum .other k).bounds = .error .typeError := by
  refine ⟨rfl, rfl, rfl, rfl, fun k => ?_⟩
  unfold Kern.bounds Kern.hypers
  cases h : k.hypers <;> simp [part, both, Kern.hypers]

end GPry.KernelHyp

namespace GPry.RunnerOut

/-- **C120**: the directories created on the way to a path are those whose names are followed by a slash in it. -/
theorem C120_parents (p q : Cobaya.Str) : q ∈ parents p ↔ q ≠ [] ∧ ∃ r, p = q ++ '/' :: r := by
  unfold parents
  rw [List.mem_filterMap]
  constructor
  · rintro ⟨i, hi, h⟩
    split_ifs at h with hc
    cases h
    rw [List.mem_range] at hi
    refine ⟨fun h => ?_, p.drop (i + 1), ?_⟩
    · have := congrArg List.length h
      rw [List.length_take, List.length_nil] at this
      omega
    · rw [List.getElem?_eq_getElem hi] at hc
      have : p[i] = '/' := by simpa using hc.1
      conv_lhs => rw [← List.take_append_drop i p, List.drop_eq_getElem_cons hi, this]
  · rintro ⟨h0, r, rfl⟩
    have : 0 < q.length := List.length_pos_iff.2 h0
    exact ⟨q.length, by simp, by simp [this]⟩

example : "a/b".toList ∈ parents "a/b/c".toList ∧ "a".toList ∈ parents "a/b/c".toList := by
  constructor
  · exact (C120_parents _ _).2 ⟨by decide, "c".toList, by decide⟩
  · exact (C120_parents _ _).2 ⟨by decide, "b/c".toList, by decide⟩

example : (GPry.KernelHyp.Kern.other : GPry.KernelHyp.Kern ℚ).setTheta [1, 2] = .error .typeError := (GPry.KernelHyp.C99_other_error [1, 2]).2.2.2.1

end GPry.RunnerOut
