import Verif.Io
import Mathlib.Tactic.IntervalCases

set_option linter.all false

namespace GPry.Io

universe u

variable {V T : Type u}

theorem exec_append (d : Dir) (a b : List Op) : exec d (a ++ b) = exec (exec d a) b := List.foldl_append ..

@[simp] theorem set_self (d : Dir) (f : File) (c : List Byte) : Dir.set d f c f = some c := by simp [Dir.set]

theorem set_set (d : Dir) (f : File) (a b : List Byte) : Dir.set (Dir.set d f a) f b = Dir.set d f b := by
  funext g
  unfold Dir.set
  split_ifs <;> rfl

theorem exec_writes (f : File) : ∀ (bs : List Byte) (d : Dir) (c : List Byte), d f = some c →
    exec d (bs.map (.write f)) = Dir.set d f (c ++ bs)
  | [], d, c, h => by
    show d = _
    rw [List.append_nil]
    funext g
    unfold Dir.set
    split_ifs with hg
    · rw [hg, h]
    · rfl
  | b :: bs, d, c, h => by
    show exec (Op.run d (.write f b)) (bs.map (.write f)) = _
    have h1 : Op.run d (.write f b) = Dir.set d f (c ++ [b]) := by
      unfold Op.run
      dsimp only
      rw [h]
    rw [h1, exec_writes f bs _ (c ++ [b]) (set_self ..), set_set]
    simp

/-- Interrupted write of a file: untouched, or the beginning of the new content. -/
theorem exec_dump_take (C : Codec V) (f : File) (v : V) (d : Dir) (n : ℕ) :
    exec d ((dumpFile C f v).take n) = if n = 0 then d else Dir.set d f ((C.dump v).take (n - 1)) := by
  cases n with
  | zero => rfl
  | succ n =>
    unfold dumpFile
    rw [List.take_succ_cons, if_neg (by omega)]
    show exec (Op.run d (.truncate f)) _ = _
    have h1 : Op.run d (.truncate f) = Dir.set d f [] := rfl
    rw [h1, ← List.map_take, exec_writes f _ _ [] (set_self ..), set_set]
    simp

theorem exec_dump (C : Codec V) (f : File) (v : V) (d : Dir) :
    exec d (dumpFile C f v) = Dir.set d f (C.dump v) := by
  have h := exec_dump_take C f v d (dumpFile C f v).length
  rw [List.take_length] at h
  rw [h, if_neg (by simp [dumpFile])]
  simp [dumpFile]

/-- A sequence of files, written one after the other. -/
def dumpAll (C : Codec V) (l : List (File × V)) : List Op := l.flatMap fun q => dumpFile C q.1 q.2

/-- The files of a save, in order. -/
def order (truth : Option V) (r : Rest V) : List (File × V) :=
  (match truth with
    | some t => [(.truth, t)]
    | none => [])
  ++ [(.gpr, r.gpr), (.acq, r.acq), (.conv, r.conv), (.opts, r.opts), (.prog, r.prog)]

theorem saveOps_eq (C : Codec V) (truth : Option V) (r : Rest V) : saveOps C truth r = dumpAll C (order truth r) := by
  unfold saveOps dumpAll order
  cases truth <;> simp

/-- Directory with the files of a list written. -/
def put (C : Codec V) (d : Dir) (l : List (File × V)) : Dir := l.foldl (fun d q => Dir.set d q.1 (C.dump q.2)) d

theorem exec_dumpAll (C : Codec V) : ∀ (l : List (File × V)) (d : Dir), exec d (dumpAll C l) = put C d l
  | [], d => rfl
  | q :: l, d => by
    unfold dumpAll
    rw [List.flatMap_cons, exec_append, exec_dump]
    exact exec_dumpAll C l _

/-- An interrupted save: some files complete, possibly one incomplete, the others untouched. -/
theorem exec_dumpAll_take (C : Codec V) : ∀ (l : List (File × V)) (d : Dir) (n : ℕ),
    (∃ k ≤ l.length, exec d ((dumpAll C l).take n) = put C d (l.take k)) ∨
    (∃ (k : ℕ) (hk : k < l.length) (p : List Byte), p <+: C.dump (l[k]).2 ∧ p ≠ C.dump (l[k]).2 ∧
      exec d ((dumpAll C l).take n) = Dir.set (put C d (l.take k)) (l[k]).1 p)
  | [], d, n => Or.inl ⟨0, le_rfl, by simp [dumpAll, put, exec]⟩
  | q :: l, d, n => by
    unfold dumpAll
    rw [List.flatMap_cons, List.take_append]
    by_cases hn : n ≤ (dumpFile C q.1 q.2).length
    · rw [Nat.sub_eq_zero_of_le hn, List.take_zero, List.append_nil, exec_dump_take]
      by_cases h0 : n = 0
      · rw [if_pos h0]
        exact Or.inl ⟨0, by omega, rfl⟩
      · rw [if_neg h0]
        by_cases hf : (C.dump q.2).take (n - 1) = C.dump q.2
        · rw [hf]
          exact Or.inl ⟨1, by simp, rfl⟩
        · exact Or.inr ⟨0, by simp, _, List.take_prefix _ _, hf, rfl⟩
    · have hfull : (dumpFile C q.1 q.2).take n = dumpFile C q.1 q.2 := List.take_of_length_le (by omega)
      rw [hfull, exec_append, exec_dump]
      rcases exec_dumpAll_take C l (Dir.set d q.1 (C.dump q.2)) (n - (dumpFile C q.1 q.2).length) with
        ⟨k, hk, he⟩ | ⟨k, hk, p, h1, h2, he⟩
      · exact Or.inl ⟨k + 1, by simp; omega, he⟩
      · exact Or.inr ⟨k + 1, by simp; omega, p, h1, h2, he⟩

/-! ## C43 -/

/-- The directory holds a complete checkpoint. -/
def Holds (C : Codec V) (d : Dir) (t : V) (r : Rest V) : Prop :=
  d .truth = some (C.dump t) ∧ d .gpr = some (C.dump r.gpr) ∧ d .acq = some (C.dump r.acq) ∧ d .conv = some (C.dump r.conv) ∧
    d .opts = some (C.dump r.opts) ∧ d .prog = some (C.dump r.prog)

def asLoaded (t : T) (r : Rest V) : Loaded T V := ⟨t, some r.gpr, some r.acq, some r.conv, some r.opts, some r.prog⟩

theorem loadFile_dump (C : Codec V) {d : Dir} {f : File} {v : V} (h : d f = some (C.dump v)) : loadFile C d f true = .ok (some v) := by
  unfold loadFile
  rw [h]
  simp [C.load_dump]

theorem check_eq (d : Dir) : check d =
    [(d .truth).isSome, (d .gpr).isSome, (d .acq).isSome, (d .conv).isSome, (d .opts).isSome, (d .prog).isSome] := rfl

theorem read_holds (C : Codec V) (getTruth : V → Except Err T) {d : Dir} {t : V} {r : Rest V} (h : Holds C d t r) (passed : Option T) :
    read C getTruth d passed = (match passed with
      | some p => .ok (asLoaded p r)
      | none => (getTruth t).map fun p => asLoaded p r) := by
  obtain ⟨h1, h2, h3, h4, h5, h6⟩ := h
  unfold read
  have hc : check d = [true, true, true, true, true, true] := by rw [check_eq, h1, h2, h3, h4, h5, h6]; rfl
  simp only [hc, List.getD_cons_zero, List.getD_cons_succ, loadFile_dump C h2, loadFile_dump C h3,
    loadFile_dump C h4, loadFile_dump C h5, loadFile_dump C h6]
  cases passed with
  | some p => rfl
  | none =>
    have ht : readTruth C getTruth d true none = getTruth t := by
      unfold readTruth
      rw [loadFile_dump C h1]
    rw [ht]
    cases getTruth t <;> rfl

theorem save_holds (C : Codec V) (d : Dir) (t : V) (r : Rest V) : Holds C (exec d (saveOps C (some t) r)) t r := by
  rw [saveOps_eq, exec_dumpAll]
  exact ⟨rfl, rfl, rfl, rfl, rfl, rfl⟩

theorem save_holds_keep (C : Codec V) (d : Dir) (t : V) (r : Rest V) (h : d .truth = some (C.dump t)) :
    Holds C (exec d (saveOps C none r)) t r := by
  rw [saveOps_eq, exec_dumpAll]
  exact ⟨h, rfl, rfl, rfl, rfl, rfl⟩

/-- **C43**: whatever was in the directory, reading after a save returns the saved objects, each in its place; the truth is
`get_truth` of the saved dictionary, or the one passed. Saving without truth keeps the one there was. -/
theorem C43_read_back (C : Codec V) (getTruth : V → Except Err T) (d : Dir) (t : V) (r : Rest V) :
    (∀ p : T, read C getTruth (exec d (saveOps C (some t) r)) (some p) = .ok (asLoaded p r)) ∧
    (∀ p : T, getTruth t = .ok p → read C getTruth (exec d (saveOps C (some t) r)) none = .ok (asLoaded p r)) ∧
    (∀ p : T, getTruth t = .ok p → d .truth = some (C.dump t) →
      read C getTruth (exec d (saveOps C none r)) none = .ok (asLoaded p r)) := by
  refine ⟨fun p => read_holds C getTruth (save_holds C d t r) (some p), fun p hp => ?_, fun p hp ht => ?_⟩
  · rw [read_holds C getTruth (save_holds C d t r) none, hp]; rfl
  · rw [read_holds C getTruth (save_holds_keep C d t r ht) none, hp]; rfl

/-- C43: a missing file is an exception: despite what its documentation says, the function never returns `None` for an
object. (The exchanged indices have no effect because of this.) -/
theorem C43_never_none (C : Codec V) (getTruth : V → Except Err T) (d : Dir) (passed : Option T) (l : Loaded T V)
    (h : read C getTruth d passed = .ok l) :
    l.gpr ≠ none ∧ l.acq ≠ none ∧ l.conv ≠ none ∧ l.opts ≠ none ∧ l.prog ≠ none := by
  have key : ∀ f g x, loadFile C d f g = .ok x → (d f).isSome = true ∧ (g = true → x ≠ none) := by
    intro f g x hx
    unfold loadFile at hx
    split at hx
    · cases hx
    · rename_i b hb
      refine ⟨by rw [hb]; rfl, fun hg => ?_⟩
      rw [if_pos hg] at hx
      split at hx
      · cases hx; simp
      · cases hx
  unfold read at h
  rw [check_eq] at h
  simp only [List.getD_cons_zero, List.getD_cons_succ] at h
  cases h1 : readTruth C getTruth d (d .truth).isSome passed with
  | error e => rw [h1] at h; cases h
  | ok t =>
  cases h2 : loadFile C d .gpr (d .gpr).isSome with
  | error e => rw [h1, h2] at h; cases h
  | ok x2 =>
  cases h3 : loadFile C d .acq (d .acq).isSome with
  | error e => rw [h1, h2, h3] at h; cases h
  | ok x3 =>
  cases h4 : loadFile C d .conv (d .conv).isSome with
  | error e => rw [h1, h2, h3, h4] at h; cases h
  | ok x4 =>
  cases h5 : loadFile C d .opts (d .prog).isSome with
  | error e => rw [h1, h2, h3, h4, h5] at h; cases h
  | ok x5 =>
  cases h6 : loadFile C d .prog (d .opts).isSome with
  | error e => rw [h1, h2, h3, h4, h5, h6] at h; cases h
  | ok x6 =>
  rw [h1, h2, h3, h4, h5, h6] at h
  cases h
  have k5 := key _ _ _ h5
  have k6 := key _ _ _ h6
  exact ⟨(key _ _ _ h2).2 (key _ _ _ h2).1, (key _ _ _ h3).2 (key _ _ _ h3).1, (key _ _ _ h4).2 (key _ _ _ h4).1,
    k5.2 k6.1, k6.2 k5.1⟩

/-- **C43** for the Runner: after any number of saves (at least one), the directory has the truth of the run and the objects of
the last save, whatever was there before. -/
theorem C43_runner (C : Codec V) (getTruth : V → Except Err T) (d : Dir) (t : V) (p : T) (ht : getTruth t = .ok p)
    (l : List (Bool × Rest V)) (q : Bool × Rest V) :
    read C getTruth (runnerSaves C t (false, d) (l ++ [q])).2 none = .ok (asLoaded p q.2) := by
  have inv : ∀ (l : List (Bool × Rest V)) (s : Bool × Dir), (s.1 = true → s.2 .truth = some (C.dump t)) →
      (runnerSaves C t s l).1 = true → (runnerSaves C t s l).2 .truth = some (C.dump t) := by
    intro l
    induction l with
    | nil => intro s h; exact h
    | cons a l ih =>
      intro s h
      refine ih (runnerSave C t s a.1 a.2) ?_
      unfold runnerSave
      split_ifs with hc
      · intro _; exact (save_holds C s.2 t a.2).1
      · intro hs; exact (save_holds_keep C s.2 t a.2 (h hs)).1
  unfold runnerSaves
  rw [List.foldl_append]
  show read C getTruth (runnerSave C t (runnerSaves C t (false, d) l) q.1 q.2).2 none = _
  have h0 := inv l (false, d) (by intro h; cases h)
  unfold runnerSave
  split_ifs with hc
  · exact (C43_read_back C getTruth _ t q.2).2.1 p ht
  · refine (C43_read_back C getTruth _ t q.2).2.2 p ht (h0 ?_)
    simp at hc
    exact hc.2

/-- C43: `ensure_gpr` prefers what is passed, if it counts as true. -/
theorem C43_ensure_partial (truthy : V → Bool) (passed loaded : List (Option V)) (i : ℕ) (hi : i < passed.length)
    (hl : i < loaded.length) :
    (∀ v, passed[i] = some v → truthy v = true → (ensure truthy passed loaded)[i]? = some (some v)) ∧
    (passed[i] = none → (ensure truthy passed loaded)[i]? = some loaded[i]) := by
  unfold ensure
  rw [List.getElem?_zipWith, List.getElem?_eq_getElem hi, List.getElem?_eq_getElem hl]
  refine ⟨fun v hv ht => ?_, fun hv => ?_⟩
  · simp [hv, pyOr, ht]
  · simp [hv, pyOr]

/-- **C43** is false of `ensure_gpr` with an empty dictionary of options: the loaded ones are used. -/
theorem C43_empty_options_counterexample (truthy : V → Bool) (empty v : V) (he : truthy empty = false) :
    ensure truthy [some empty] [some v] = [some v] := by
  simp [ensure, pyOr, he]

/-! ## C42 -/

theorem resume_holds (C : Codec V) (getTruth : V → Except Err T) {d : Dir} {t : V} {r : Rest V} (h : Holds C d t r) (p : T) :
    resume C getTruth d (some p) = .loaded (asLoaded p r) := by
  unfold resume
  rw [read_holds C getTruth h]
  obtain ⟨h1, h2, h3, h4, h5, h6⟩ := h
  rw [check_eq, h1, h2, h3, h4, h5, h6]
  rfl

/-- `k` objects of the new checkpoint and the others of the old one. -/
def mix (new old : Rest V) (k : ℕ) : Rest V :=
  ⟨if 1 ≤ k then new.gpr else old.gpr, if 2 ≤ k then new.acq else old.acq, if 3 ≤ k then new.conv else old.conv,
    if 4 ≤ k then new.opts else old.opts, if 5 ≤ k then new.prog else old.prog⟩

theorem read_broken (C : Codec V) (getTruth : V → Except Err T) {d : Dir} {f : File} {v : V} {p : List Byte} (hf : f ≠ .truth)
    (hp : p <+: C.dump v) (hne : p ≠ C.dump v) (hd : d f = some p) (hall : (check d).all id = true) (passed : T) :
    ∃ e, read C getTruth d (some passed) = .error e := by
  have hfail : loadFile C d f true = .error .unpickling := by
    unfold loadFile
    rw [hd]
    simp [C.load_prefix v p hp hne]
  rw [check_eq] at hall
  simp only [List.all_cons, List.all_nil, id, Bool.and_eq_true, Bool.and_true] at hall
  obtain ⟨a1, a2, a3, a4, a5, a6⟩ := hall
  unfold read
  rw [check_eq, a1, a2, a3, a4, a5, a6]
  simp only [List.getD_cons_zero, List.getD_cons_succ]
  cases f with
  | truth => exact absurd rfl hf
  | gpr => exact ⟨.unpickling, by rw [hfail]; rfl⟩
  | acq =>
    rw [hfail]
    cases loadFile C d .gpr true with
    | error e => exact ⟨e, rfl⟩
    | ok x => exact ⟨.unpickling, rfl⟩
  | conv =>
    rw [hfail]
    cases loadFile C d .gpr true with
    | error e => exact ⟨e, rfl⟩
    | ok x =>
    cases loadFile C d .acq true with
    | error e => exact ⟨e, rfl⟩
    | ok x => exact ⟨.unpickling, rfl⟩
  | opts =>
    rw [hfail]
    cases loadFile C d .gpr true with
    | error e => exact ⟨e, rfl⟩
    | ok x =>
    cases loadFile C d .acq true with
    | error e => exact ⟨e, rfl⟩
    | ok x =>
    cases loadFile C d .conv true with
    | error e => exact ⟨e, rfl⟩
    | ok x => exact ⟨.unpickling, rfl⟩
  | prog =>
    rw [hfail]
    cases loadFile C d .gpr true with
    | error e => exact ⟨e, rfl⟩
    | ok x =>
    cases loadFile C d .acq true with
    | error e => exact ⟨e, rfl⟩
    | ok x =>
    cases loadFile C d .conv true with
    | error e => exact ⟨e, rfl⟩
    | ok x =>
    cases loadFile C d .opts true with
    | error e => exact ⟨e, rfl⟩
    | ok x => exact ⟨.unpickling, rfl⟩

/-- **C42**, partial: if the process dies at any moment of a save (with or without truth) over a complete checkpoint, then resuming
fails with an exception, or loads a checkpoint in which the first objects are all new and the following ones all old; without a
crash, all are new. (Missing: all new or all old, see `C42_mixed_counterexample`.) -/
theorem C42_crash_partial (C : Codec V) (getTruth : V → Except Err T) {d : Dir} {t : V} {old : Rest V} (h : Holds C d t old)
    (truth : Option V) (new : Rest V) (p : T) :
    (∀ n, (∃ e, resume C getTruth (exec d ((saveOps C truth new).take n)) (some p) = .failed e) ∨
      (∃ k ≤ 5, resume C getTruth (exec d ((saveOps C truth new).take n)) (some p) = .loaded (asLoaded p (mix new old k)))) ∧
    resume C getTruth (exec d (saveOps C truth new)) (some p) = .loaded (asLoaded p new) := by
  have hfin : resume C getTruth (exec d (saveOps C truth new)) (some p) = .loaded (asLoaded p new) := by
    cases truth with
    | none => exact resume_holds C getTruth (save_holds_keep C d t new h.1) p
    | some t' => exact resume_holds C getTruth (save_holds C d t' new) p
  refine ⟨fun n => ?_, hfin⟩
  obtain ⟨h1, h2, h3, h4, h5, h6⟩ := h
  rw [saveOps_eq]
  rcases exec_dumpAll_take C (order truth new) d n with ⟨k, hk, he⟩ | ⟨k, hk, b, hb1, hb2, he⟩
  · right
    cases truth with
    | none =>
      have hk5 : k ≤ 5 := hk
      refine ⟨k, hk5, ?_⟩
      rw [he]
      refine resume_holds C getTruth (t := t) ?_ p
      interval_cases k <;>
        exact ⟨by simp [put, order, mix, Dir.set, h1], by simp [put, order, mix, Dir.set, h2], by simp [put, order, mix, Dir.set, h3],
          by simp [put, order, mix, Dir.set, h4], by simp [put, order, mix, Dir.set, h5], by simp [put, order, mix, Dir.set, h6]⟩
    | some t' =>
      have hk5 : k ≤ 6 := hk
      refine ⟨k - 1, by omega, ?_⟩
      rw [he]
      refine resume_holds C getTruth (t := if k = 0 then t else t') ?_ p
      interval_cases k <;>
        exact ⟨by simp [put, order, mix, Dir.set, h1], by simp [put, order, mix, Dir.set, h2], by simp [put, order, mix, Dir.set, h3],
          by simp [put, order, mix, Dir.set, h4], by simp [put, order, mix, Dir.set, h5], by simp [put, order, mix, Dir.set, h6]⟩
  · rw [he]
    have hall : (check (Dir.set (put C d ((order truth new).take k)) ((order truth new)[k]).1 b)).all id = true := by
      rw [check_eq]
      cases truth with
      | none =>
        have hk5 : k < 5 := hk
        interval_cases k <;> simp [put, order, Dir.set, h1, h2, h3, h4, h5, h6]
      | some t' =>
        have hk5 : k < 6 := hk
        interval_cases k <;> simp [put, order, Dir.set, h1, h2, h3, h4, h5, h6]
    by_cases hf : ((order truth new)[k]).1 = .truth
    · -- the truth file is the broken one, and it is not read
      right
      refine ⟨0, by omega, ?_⟩
      have hk0 : k = 0 ∧ ∃ t', truth = some t' := by
        cases truth with
        | none =>
          have hk5 : k < 5 := hk
          exfalso
          interval_cases k <;> simp [order] at hf
        | some t' =>
          have hk5 : k < 6 := hk
          refine ⟨?_, t', rfl⟩
          interval_cases k <;> simp [order] at hf ⊢
      obtain ⟨rfl, t', rfl⟩ := hk0
      have e1 : (order (some t') new)[0] = (.truth, t') := rfl
      rw [e1]
      have e2 : put C d ((order (some t') new).take 0) = d := rfl
      rw [e2]
      unfold resume
      have hx : check (Dir.set d File.truth b) = [true, true, true, true, true, true] := by
        rw [check_eq]; simp [Dir.set, h2, h3, h4, h5, h6]
      have hr : read C getTruth (Dir.set d File.truth b) (some p) = .ok (asLoaded p (mix new old 0)) := by
        unfold read
        rw [hx]
        have g2 := loadFile_dump C (d := Dir.set d File.truth b) (f := .gpr) (v := old.gpr) (by simp [Dir.set, h2])
        have g3 := loadFile_dump C (d := Dir.set d File.truth b) (f := .acq) (v := old.acq) (by simp [Dir.set, h3])
        have g4 := loadFile_dump C (d := Dir.set d File.truth b) (f := .conv) (v := old.conv) (by simp [Dir.set, h4])
        have g5 := loadFile_dump C (d := Dir.set d File.truth b) (f := .opts) (v := old.opts) (by simp [Dir.set, h5])
        have g6 := loadFile_dump C (d := Dir.set d File.truth b) (f := .prog) (v := old.prog) (by simp [Dir.set, h6])
        simp only [List.getD_cons_zero, List.getD_cons_succ, g2, g3, g4, g5, g6]
        rfl
      rw [hx, hr]
      rfl
    · left
      obtain ⟨d', hd'⟩ : ∃ d' : Dir, d' = Dir.set (put C d ((order truth new).take k)) ((order truth new)[k]).1 b :=
        ⟨_, rfl⟩
      rw [← hd'] at hall ⊢
      obtain ⟨e, hr⟩ := read_broken C getTruth hf hb1 hb2 (by rw [hd']; exact set_self ..) hall p
      refine ⟨e, ?_⟩
      unfold resume
      rw [if_pos hall, hr]

/-- **C42** for the first save, in an empty directory: not found, an exception, or the complete new one. -/
theorem C42_first (C : Codec V) (getTruth : V → Except Err T) (t : V) (new : Rest V) (p : T) (n : ℕ) :
    (resume C getTruth (exec (fun _ => none) ((saveOps C (some t) new).take n)) (some p) = .notFound) ∨
    (∃ e, resume C getTruth (exec (fun _ => none) ((saveOps C (some t) new).take n)) (some p) = .failed e) ∨
    (resume C getTruth (exec (fun _ => none) ((saveOps C (some t) new).take n)) (some p) = .loaded (asLoaded p new)) := by
  rw [saveOps_eq]
  rcases exec_dumpAll_take C (order (some t) new) (fun _ => none) n with ⟨k, hk, he⟩ | ⟨k, hk, b, hb1, hb2, he⟩
  · have hk5 : k ≤ 6 := hk
    rw [he]
    by_cases h6 : k = 6
    · right; right
      subst h6
      exact resume_holds C getTruth (t := t) ⟨rfl, rfl, rfl, rfl, rfl, rfl⟩ p
    · left
      unfold resume
      rw [if_neg]
      rw [check_eq]
      interval_cases k <;> simp [put, order, Dir.set] at h6 ⊢
  · rw [he]
    obtain ⟨d', hd'⟩ : ∃ d' : Dir, d' = Dir.set (put C (fun _ => none) ((order (some t) new).take k)) ((order (some t) new)[k]).1 b := ⟨_, rfl⟩
    rw [← hd']
    have hk5 : k < 6 := hk
    by_cases hall : (check d').all id = true
    · right; left
      have hf : ((order (some t) new)[k]).1 ≠ .truth := by
        intro hf
        have hk0 : k = 0 := by interval_cases k <;> simp [order] at hf ⊢
        subst hk0
        rw [hd', check_eq] at hall
        simp [put, order, Dir.set] at hall
      obtain ⟨e, hr⟩ := read_broken C getTruth hf hb1 hb2 (by rw [hd']; exact set_self ..) hall p
      refine ⟨e, ?_⟩
      unfold resume
      rw [if_pos hall, hr]
    · left
      unfold resume
      rw [if_neg hall]

/-- **C42** is false: for any two checkpoints there is a moment at which a crash leaves the new surrogate with the old acquisition,
convergence, options and progress, and they are loaded without complaint. -/
theorem C42_mixed_counterexample (C : Codec V) (getTruth : V → Except Err T) {d : Dir} {t : V} {old : Rest V} (h : Holds C d t old)
    (new : Rest V) (p : T) : ∃ n, resume C getTruth (exec d ((saveOps C none new).take n)) (some p) =
      .loaded (asLoaded p ⟨new.gpr, old.acq, old.conv, old.opts, old.prog⟩) := by
  refine ⟨(dumpFile C .gpr new.gpr).length, ?_⟩
  have hs : (saveOps C none new).take (dumpFile C .gpr new.gpr).length = dumpFile C .gpr new.gpr := by
    unfold saveOps
    simp [List.append_assoc]
  rw [hs, exec_dump]
  obtain ⟨h1, h2, h3, h4, h5, h6⟩ := h
  exact resume_holds C getTruth (t := t) ⟨by simp [Dir.set, h1], by simp [Dir.set], by simp [Dir.set, h3], by simp [Dir.set, h4], by simp [Dir.set, h5], by simp [Dir.set, h6]⟩ p

/-! ## C83 -/

/-- **C83** is false: without likelihood, the Runner never loads the checkpoint, whatever is in the directory. -/
theorem C83_resume_counterexample {F M : Type u} (C : Codec V) (getTruth : V → Except Err T) (mk : F → Except Err T)
    (mkCobaya : M → Except Err T) (d : Dir) (b : Bool) : ∃ e, runnerInit C getTruth mk mkCobaya d b .none = .error e := by
  unfold runnerInit
  cases h : (b && (check d).all id)
  · exact ⟨.valueError, rfl⟩
  · exact ⟨.typeError, rfl⟩

/-- **C83**, partial: with a likelihood, a complete checkpoint is loaded, with the truth that was passed; the saved one plays
no role. -/
theorem C83_resume_partial {F M : Type u} (C : Codec V) (getTruth : V → Except Err T) (mk : F → Except Err T)
    (mkCobaya : M → Except Err T) {d : Dir} {t : V} {r : Rest V} (h : Holds C d t r) (f : F) (p : T) (hp : mk f = .ok p) :
    runnerInit C getTruth mk mkCobaya d true (.callable f) = .ok (p, some (asLoaded p r)) := by
  have hc : (check d).all id = true := by
    obtain ⟨h1, h2, h3, h4, h5, h6⟩ := h
    rw [check_eq, h1, h2, h3, h4, h5, h6]; rfl
  unfold runnerInit
  rw [hc]
  simp only [Bool.and_true, getTruthArg, hp, if_true, read_holds C getTruth h]
  rfl

/-! ## Examples -/

/-- Numbers as that many bytes 1 and a byte 0 at the end. -/
def exCodec : Codec ℕ where
  dump n := List.replicate n 1 ++ [0]
  load b := if b = List.replicate (b.length - 1) 1 ++ [0] then some (b.length - 1) else none
  load_dump v := by simp
  load_prefix v p hp hne := by
    rw [if_neg]
    intro h
    apply hne
    obtain ⟨q, hq⟩ := hp
    -- the last byte of the prefix is 0, and the only 0 is the last one
    have hlen : p.length ≤ v + 1 := by
      have := congrArg List.length hq
      simp at this
      omega
    have h1 : 1 ≤ p.length := by
      have := congrArg List.length h
      simp at this
      omega
    have h0 : p[p.length - 1]? = some 0 := by
      rw [h]; simp
    have h2 : (List.replicate v (1 : Byte) ++ [0])[p.length - 1]? = some 0 := by
      rw [← hq, List.getElem?_append_left (by omega), h0]
    have h3 : p.length - 1 = v := by
      by_contra hc
      rw [List.getElem?_append_left (by simp; omega), List.getElem?_replicate] at h2
      rw [if_pos (by omega)] at h2
      simp at h2
    rw [h, h3]

/-- C42, C43: a directory with a checkpoint. -/
def exOld : Rest ℕ := ⟨1, 2, 3, 4, 5⟩
def exNew : Rest ℕ := ⟨6, 7, 8, 9, 10⟩
def exDir : Dir := exec (fun _ => none) (saveOps exCodec (some 0) exOld)

example : Holds exCodec exDir 0 exOld := save_holds exCodec _ 0 exOld

def isLoaded {T V : Type} [DecidableEq T] [DecidableEq V] (r : Resume T V) (l : Loaded T V) : Bool :=
  match r with
  | .loaded m => decide (m = l)
  | _ => false

example : isLoaded (resume exCodec (fun v => .ok v) (exec exDir ((saveOps exCodec none exNew).take 8)) (some 11))
      (asLoaded 11 ⟨6, 2, 3, 4, 5⟩) = true ∧
    isLoaded (resume exCodec (fun v => .ok v) (exec exDir ((saveOps exCodec none exNew).take 9)) (some 11))
      (asLoaded 11 ⟨6, 2, 3, 4, 5⟩) = false := by decide +kernel

/-! ## Each theorem applied to concrete data -/

theorem exDir_holds : Holds exCodec exDir 0 exOld := save_holds exCodec _ 0 exOld

example : read exCodec (fun v => (.ok v : Except Err ℕ)) (exec exDir (saveOps exCodec none exNew)) none = .ok (asLoaded 0 exNew) :=
  (C43_read_back exCodec _ exDir 0 exNew).2.2 0 rfl exDir_holds.1

example (l : Loaded ℕ ℕ) (h : read exCodec (fun v => .ok v) exDir none = .ok l) : l.conv ≠ none := (C43_never_none _ _ _ _ _ h).2.2.1

example : read exCodec (fun v => (.ok v : Except Err ℕ)) (runnerSaves exCodec 0 (false, fun _ => none) ([(true, exOld), (false, exOld)] ++ [(true, exNew)])).2 none =
    .ok (asLoaded 0 exNew) := C43_runner exCodec _ _ 0 0 rfl [(true, exOld), (false, exOld)] (true, exNew)

example : (ensure (fun v : ℕ => v != 0) [some 3, none] [some 8, some 9])[0]? = some (some 3) ∧
    (ensure (fun v : ℕ => v != 0) [some 3, none] [some 8, some 9])[1]? = some (some 9) :=
  ⟨(C43_ensure_partial _ [some 3, none] [some 8, some 9] 0 (by decide) (by decide)).1 3 rfl rfl,
    (C43_ensure_partial _ [some 3, none] [some 8, some 9] 1 (by decide) (by decide)).2 rfl⟩

example : (∃ e, resume exCodec (fun v => (.ok v : Except Err ℕ)) (exec exDir ((saveOps exCodec none exNew).take 11)) (some 11) = .failed e) ∨
    ∃ k ≤ 5, resume exCodec (fun v => (.ok v : Except Err ℕ)) (exec exDir ((saveOps exCodec none exNew).take 11)) (some 11) = .loaded (asLoaded 11 (mix exNew exOld k)) :=
  (C42_crash_partial exCodec (fun v => .ok v) exDir_holds none exNew 11).1 11

example : resume exCodec (fun v => (.ok v : Except Err ℕ)) (exec (fun _ => none) ((saveOps exCodec (some 0) exNew).take 11)) (some 11) ≠
    .loaded (asLoaded 11 exOld) := by
  rcases C42_first exCodec (fun v => (.ok v : Except Err ℕ)) 0 exNew 11 11 with h | ⟨e, h⟩ | h <;> rw [h] <;> simp [asLoaded, exOld, exNew]

example : runnerInit (F := ℕ) (M := Unit) exCodec (fun v => .ok v) (fun f => .ok f) (fun _ => .error .fileNotFound) exDir true (.callable 11) =
    .ok (11, some (asLoaded 11 exOld)) := C83_resume_partial exCodec _ _ _ exDir_holds 11 11 rfl

end GPry.Io
