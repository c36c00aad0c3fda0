import Verif.Gather
import Verif.CobayaProps
import Mathlib.Data.Nat.Basic

set_option linter.all false

/-!
# C116: arrays gathered in the main process, shared attributes
-/

namespace GPry.Gather

open Spmd Prog
open GPry.Cobaya (Dict Str get_put)

section gather
variable {α : Type} {p : ℕ}

theorem column_ok (all : List (List (List α))) (i : ℕ) (h : ∀ l ∈ all, i < l.length) :
    column all i = .ok (all.map fun l => l.getD i []).flatten := by
  induction all with
  | nil => rfl
  | cons l ls ih =>
    have h0 := h l (List.mem_cons_self)
    rw [column, ih fun l' hl => h l' (List.mem_cons_of_mem _ hl), List.getElem?_eq_getElem h0]
    simp [List.getD_eq_getElem?_getD, List.getElem?_eq_getElem h0]

theorem column_error (all : List (List (List α))) (i : ℕ) (h : ∃ l ∈ all, l.length ≤ i) : column all i = .error .indexError := by
  induction all with
  | nil => obtain ⟨l, hl, _⟩ := h; cases hl
  | cons l ls ih =>
    rw [column]
    cases hi : l[i]? with
    | none => rfl
    | some a =>
      obtain ⟨l', hl', hle⟩ := h
      rcases List.mem_cons.1 hl' with rfl | hl'
      · rw [List.getElem?_eq_none hle] at hi; cases hi
      · rw [ih ⟨l', hl', hle⟩]

theorem columns_ok (all : List (List (List α))) (is : List ℕ) (h : ∀ i ∈ is, ∀ l ∈ all, i < l.length) :
    columns all is = .ok (is.map fun i => some (all.map fun l => l.getD i []).flatten) := by
  induction is with
  | nil => rfl
  | cons i is ih =>
    rw [columns, column_ok all i (h i (List.mem_cons_self)), ih fun j hj => h j (List.mem_cons_of_mem _ hj)]
    rfl

theorem columns_error (all : List (List (List α))) (is : List ℕ) (h : ∃ i ∈ is, ∃ l ∈ all, l.length ≤ i) :
    columns all is = .error .indexError := by
  induction is with
  | nil => obtain ⟨i, hi, _⟩ := h; cases hi
  | cons i is ih =>
    rw [columns]
    by_cases hc : ∃ l ∈ all, l.length ≤ i
    · rw [column_error all i hc]
    · push Not at hc
      rw [column_ok all i hc]
      obtain ⟨j, hj, hl⟩ := h
      rcases List.mem_cons.1 hj with rfl | hj
      · obtain ⟨l, hl, hle⟩ := hl
        exact absurd (hc l hl) (not_lt.2 hle)
      · rw [ih ⟨j, hj, hl⟩]

/-- What happens with more than one process, in general. -/
theorem gather_runs (hp : 1 < p) (arg : Fin p → Arg α) :
    Runs (fun r : Fin p => multiGather p (arg r)) fun r =>
      if r.val = 0 then columns (List.ofFn fun r => (arg r).list) (List.range (arg r).list.length)
      else .ok (List.replicate (arg r).list.length none) := by
  have h : ∀ r : Fin p, multiGather p (arg r) = (collect (arg r).list >>= fun
      | some all => fin (columns all (List.range (arg r).list.length))
      | none => .ret (List.replicate (arg r).list.length none) : Prog Err _) := by
    intro r
    unfold multiGather
    dsimp only
    rw [if_neg (by omega)]
    rfl
  simp only [h]
  refine Runs.bind (runs_collect fun r => (arg r).list) ?_
  have : (fun r : Fin p => (match (if r.val = 0 then some (List.ofFn fun r => (arg r).list) else none : Option (List (List (List α)))) with
      | some all => fin (columns all (List.range (arg r).list.length))
      | none => .ret (List.replicate (arg r).list.length none) : Prog Err _)) =
      fun r => Prog.fin (if r.val = 0 then columns (List.ofFn fun r => (arg r).list) (List.range (arg r).list.length)
        else .ok (List.replicate (arg r).list.length none)) := by
    funext r
    by_cases hr : r.val = 0 <;> simp [hr, Prog.fin]
  exact this ▸ Runs.fin _

/-- **C116** (gather). If all the processes pass the same number of arrays (or one array each), `multi_gather_array` ends in all of them without exceptions;
the main process gets, for each array, the arrays of all the processes one after the other, ordered by rank, and the others
as many `None`s. -/
theorem C116_gather (hp : 0 < p) (arg : Fin p → Arg α) (k : ℕ) (hk : ∀ r, (arg r).list.length = k) :
    ∃ res : Fin p → Except Err (List (Option (List α))), Runs (fun r : Fin p => multiGather p (arg r)) res ∧
      (∀ r, r.val ≠ 0 → res r = .ok (List.replicate k none)) ∧
      ∀ r, r.val = 0 → ∃ out, res r = .ok out ∧ out.length = k ∧
        ∀ i < k, out[i]? = some (some ((List.finRange p).map fun s => (arg s).list.getD i []).flatten) := by
  by_cases h1 : p ≤ 1
  · obtain rfl : p = 1 := by omega
    refine ⟨fun r => .ok ((arg r).list.map some), ?_, fun r hr => by omega, fun r _ => ⟨_, rfl, by rw [List.length_map, hk], fun i hi => ?_⟩⟩
    · have : (fun r : Fin 1 => multiGather 1 (arg r)) = fun r => Prog.ret ((arg r).list.map some) := by
        funext r; unfold multiGather; simp
      exact this ▸ Runs.ret _
    · have hi' : i < (arg r).list.length := by rw [hk]; exact hi
      have h0 : r = 0 := Subsingleton.elim _ _
      subst h0
      rw [List.getElem?_map, List.getElem?_eq_getElem hi']
      simp [List.finRange_succ, List.getD_eq_getElem?_getD, List.getElem?_eq_getElem hi']
  · refine ⟨_, gather_runs (by omega) arg, fun r hr => by rw [if_neg hr, hk], fun r hr => ?_⟩
    rw [if_pos hr, hk, columns_ok]
    · refine ⟨_, rfl, by simp, fun i hi => ?_⟩
      rw [List.getElem?_map, List.getElem?_range hi]
      simp [List.ofFn_eq_map]
      rfl
    · intro i hi l hl
      obtain ⟨s, rfl⟩ := List.mem_ofFn.1 hl
      rw [hk]
      exact List.mem_range.1 hi

/-- **C116** is false if a process passes fewer arrays than the main one: the main process raises, and the rest go on as if nothing had happened. -/
theorem C116_gather_counterexample (hp : 1 < p) (arg : Fin p → Arg α) (s : Fin p) (hs : (arg s).list.length < (arg ⟨0, by omega⟩).list.length) :
    ∃ res : Fin p → Except Err (List (Option (List α))), Runs (fun r : Fin p => multiGather p (arg r)) res ∧
      res ⟨0, by omega⟩ = .error .indexError ∧ ∀ r : Fin p, r.val ≠ 0 → ∃ out, res r = .ok out := by
  refine ⟨_, gather_runs hp arg, ?_, fun r hr => ⟨_, by rw [if_neg hr]⟩⟩
  rw [if_pos rfl, columns_error]
  exact ⟨_, List.mem_range.2 hs, _, List.mem_ofFn.2 ⟨s, rfl⟩, le_refl _⟩

/-- Two processes with two arrays each. -/
example : ∃ res : Fin 2 → Except Err (List (Option (List ℕ))),
    Runs (fun r : Fin 2 => multiGather 2 (if r.val = 0 then Arg.many [[1, 2], [3]] else .many [[4], []])) res ∧
    res 0 = .ok [some [1, 2, 4], some [3]] ∧ res 1 = .ok [none, none] :=
  ⟨_, gather_runs (by decide) _, rfl, rfl⟩

end gather

/-! ## Attributes -/

section attr
variable {V : Type} {p : ℕ}

theorem getattr_put (o : Object V) (a b : Str) (v : Option V) : getattr (Cobaya.put o (a, v)) b = if a = b then v else getattr o b := by
  unfold getattr
  rw [get_put]
  by_cases h : a = b
  · rw [if_pos h, if_pos h]; rfl
  · rw [if_neg h, if_neg h]

/-- **C116** (share): after `share_attr` the attribute has in all the processes the value it had in the process `root` (`None` if it was not
there), and all the other attributes have the values they had. -/
theorem C116_share (root : Fin p) (a : Str) (o : Fin p → Object V) :
    ∃ o' : Fin p → Object V, Runs (fun r : Fin p => shareAttr p root.val a (o r)) (fun r => .ok (o' r)) ∧
      (∀ r, getattr (o' r) a = getattr (o root) a) ∧ ∀ r b, b ≠ a → getattr (o' r) b = getattr (o r) b := by
  by_cases h1 : p ≤ 1
  · have hs : ∀ r, r = root := fun r => Fin.ext (by omega)
    refine ⟨o, ?_, fun r => by rw [hs r], fun _ _ _ => rfl⟩
    have : (fun r : Fin p => shareAttr p root.val a (o r)) = fun r => Prog.ret (o r) := by
      funext r; unfold shareAttr; rw [if_pos h1]
    exact this ▸ Runs.ret _
  · refine ⟨fun r => Cobaya.put (o r) (a, getattr (o root) a), ?_, fun r => by rw [getattr_put, if_pos rfl],
      fun r b hb => by rw [getattr_put, if_neg hb.symm]⟩
    have : (fun r : Fin p => shareAttr p root.val a (o r)) =
        fun r => (share root.val (getattr (o r) a) >>= fun v => Prog.ret (Cobaya.put (o r) (a, v)) : Prog Err _) := by
      funext r; unfold shareAttr; rw [if_neg h1]
    rw [this]
    exact Runs.bind (runs_share root fun r => getattr (o r) a) (Runs.ret _)

theorem update_runs (hp : 0 < p) (acq : Fin p → Object V) (conv : Fin p → List (Object V)) :
    ∀ (args : List (Str × Option V)) (o : Fin p → Object V), (args.map Prod.fst).Nodup →
    ∃ o' : Fin p → Object V, Runs (fun r : Fin p => updateLoop p r.val (acq r) (conv r) args (o r)) (fun r => .ok (o' r)) ∧
      (∀ q ∈ args, ∀ r, getattr (o' r) q.1 = q.2.orElse fun _ => getattr (acq ⟨0, hp⟩) q.1) ∧
      ∀ r b, b ∉ args.map Prod.fst → getattr (o' r) b = getattr (o r) b := by
  intro args
  induction args with
  | nil => intro o _; exact ⟨o, Runs.ret _, fun q hq => (by cases hq), fun _ _ _ => rfl⟩
  | cons q args ih =>
    intro o hnd
    obtain ⟨a, arg⟩ := q
    rw [List.map_cons, List.nodup_cons] at hnd
    let f : Fin p → Object V := fun r => if r.val = 0 then
        Cobaya.put (o r) (a, match arg with
          | some v => some v
          | none =>
            match getattr (acq r) a with
            | some v => some v
            | none => getattrList (conv r) a)
      else o r
    obtain ⟨o1, h1, h2, h3⟩ := C116_share ⟨0, hp⟩ a f
    obtain ⟨o2, g1, g2, g3⟩ := ih o1 hnd.2
    have hrun : (fun r : Fin p => updateLoop p r.val (acq r) (conv r) ((a, arg) :: args) (o r)) =
        fun r => shareAttr p (⟨0, hp⟩ : Fin p).val a (f r) >>= updateLoop p r.val (acq r) (conv r) args := by
      funext r; rw [updateLoop.eq_def]; cases arg <;> rfl
    refine ⟨o2, hrun ▸ Runs.bind h1 g1, ?_, ?_⟩
    · intro q hq r
      rcases List.mem_cons.1 hq with rfl | hq
      · rw [g3 r a hnd.1, h2 r]
        dsimp only [f]
        rw [if_pos rfl, getattr_put, if_pos rfl]
        cases arg with
        | some v => rfl
        | none => cases getattr (acq ⟨0, hp⟩) a <;> rfl
      · exact g2 q hq r
    · intro r b hb
      rw [List.map_cons, List.mem_cons, not_or] at hb
      rw [g3 r b hb.2, h3 r b hb.1]
      dsimp only [f]
      by_cases hr : r.val = 0
      · rw [if_pos hr, getattr_put, if_neg (Ne.symm hb.1)]
      · rw [if_neg hr]

/-- **C116** (mean and covariance, partial: the documented third source is missing, see below). `update_mean_cov` ends in all the processes, after which all
have as `mean` and `cov` those of the MC sample passed, or else those of the acquisition object of the main process (`None` if it has none), and the
other attributes are as before. -/
theorem C116_mean_cov_partial (hp : 0 < p) (acq : Fin p → Object V) (conv : Fin p → List (Object V)) (sample : Option (V × V)) (o : Fin p → Object V) :
    ∃ o' : Fin p → Object V, Runs (fun r : Fin p => updateMeanCov p r.val (acq r) (conv r) sample (o r)) (fun r => .ok (o' r)) ∧
      (∀ r, getattr (o' r) "mean".toList = (sample.map Prod.fst).orElse fun _ => getattr (acq ⟨0, hp⟩) "mean".toList) ∧
      (∀ r, getattr (o' r) "cov".toList = (sample.map Prod.snd).orElse fun _ => getattr (acq ⟨0, hp⟩) "cov".toList) ∧
      ∀ r b, b ≠ "mean".toList → b ≠ "cov".toList → getattr (o' r) b = getattr (o r) b := by
  obtain ⟨o', h1, h2, h3⟩ := update_runs hp acq conv [("mean".toList, sample.map Prod.fst), ("cov".toList, sample.map Prod.snd)] o (by
    show ((["mean".toList, "cov".toList] : List Str)).Nodup; decide)
  exact ⟨o', h1, fun r => h2 _ (List.mem_cons_self) r, fun r => h2 _ (List.mem_cons_of_mem _ (List.mem_cons_self)) r,
    fun r b hb1 hb2 => h3 r b (by simp only [List.map_cons, List.map_nil, List.mem_cons, List.not_mem_nil, or_false, not_or]; exact ⟨hb1, hb2⟩)⟩

/-- **C116** is false of the documented fallback ("and Convergence second"): whatever mean and covariance the convergence criteria have, if the acquisition
object has none (as `BatchOptimizer`) and there is no sample, the ones of the runner are `None` afterwards, also if they had been computed before. -/
theorem C116_convergence_counterexample (hp : 0 < p) (acq : Fin p → Object V) (conv : Fin p → List (Object V)) (o : Fin p → Object V)
    (hm : getattr (acq ⟨0, hp⟩) "mean".toList = none) (hc : getattr (acq ⟨0, hp⟩) "cov".toList = none) :
    ∃ o' : Fin p → Object V, Runs (fun r : Fin p => updateMeanCov p r.val (acq r) (conv r) none (o r)) (fun r => .ok (o' r)) ∧
      ∀ r, getattr (o' r) "mean".toList = none ∧ getattr (o' r) "cov".toList = none := by
  obtain ⟨o', h1, h2, h3, _⟩ := C116_mean_cov_partial hp acq conv none o
  exact ⟨o', h1, fun r => ⟨by rw [h2, hm]; rfl, by rw [h3, hc]; rfl⟩⟩

/-- Three processes; the acquisition object of the main one has a mean, the convergence criterion too. -/
example : ∃ o' : Fin 3 → Object ℕ,
    Runs (fun r : Fin 3 => updateMeanCov 3 r.val (if r.val = 0 then [("mean".toList, some 5)] else []) [[("mean".toList, some 7)]] none [("cov".toList, some 1)])
      (fun r => .ok (o' r)) ∧ getattr (o' 2) "mean".toList = some 5 ∧ getattr (o' 2) "cov".toList = none := by
  obtain ⟨o', h1, h2, h3, _⟩ := C116_mean_cov_partial (V := ℕ) (p := 3) (by decide) (fun r => if r.val = 0 then [("mean".toList, some 5)] else [])
    (fun _ => [[("mean".toList, some 7)]]) none (fun _ => [("cov".toList, some 1)])
  exact ⟨o', h1, by rw [h2]; decide, by rw [h3]; decide⟩

end attr

example : ∃ res : Fin 2 → Except Err (List (Option (List ℕ))),
    Runs (fun r : Fin 2 => multiGather 2 (if r.val = 0 then Arg.many [[1, 2], [3]] else .many [[4], []])) res ∧ res 1 = .ok [none, none] ∧
    ∃ out, res 0 = .ok out ∧ out[0]? = some (some [1, 2, 4]) := by
  obtain ⟨res, h, h1, h0⟩ := C116_gather (p := 2) (by decide) (fun r => if r.val = 0 then Arg.many [[1, 2], [3]] else .many [[4], []]) 2
    (fun r => by fin_cases r <;> rfl)
  obtain ⟨out, ho, -, hi⟩ := h0 0 rfl
  exact ⟨res, h, h1 1 (by decide), out, ho, (hi 0 (by decide)).trans (by decide)⟩

example : ∃ o' : Fin 3 → Object ℕ, Runs (fun r : Fin 3 => shareAttr 3 1 "a".toList [("a".toList, some r.val)]) (fun r => .ok (o' r)) ∧
    ∀ r, getattr (o' r) "a".toList = some 1 := by
  obtain ⟨o', h, ha, -⟩ := C116_share (1 : Fin 3) "a".toList (fun r => [("a".toList, some r.val)])
  exact ⟨o', h, fun r => (ha r).trans (by decide)⟩

end GPry.Gather
