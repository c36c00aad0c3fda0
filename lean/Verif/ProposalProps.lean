import Verif.Proposal
import Verif.ToolsProps
import Mathlib.Algebra.Order.Ring.Rat
import Mathlib.Algebra.Field.Rat
import Mathlib.Tactic.Linarith

set_option linter.all false

namespace GPry.Proposal

open GPry

variable {K : Type*} [Field K] [LinearOrder K] [IsStrictOrderedRing K]

/-- A point is inside of a box. -/
def Inside (b : Box K) (x : List (Ext K)) : Prop := ∃ v : List K, x = v.map .fin ∧ List.Forall₂ (fun v q => q.1 ≤ v ∧ v ≤ q.2) v b

theorem checkLoop_inside {G : Type*} (R : Rng K G) (tag : ℕ) (b : Box K) (hraw : ∀ g, (R.raw tag g).1.length = b.length) :
    ∀ (fuel : ℕ) (g : G) {x : List (Ext K)} {g' : G}, checkLoop R tag b fuel g = some (x, g') → Inside b x
  | 0, g, x, g', h => by cases h
  | fuel + 1, g, x, g', h => by
    unfold checkLoop at h
    dsimp only at h
    split_ifs at h with hc
    · cases h
      exact (Tools.C46_closed_box b _ (hraw g)).1 hc
    · exact checkLoop_inside R tag b hraw fuel _ h

theorem uniform_inside (b : Box K) (hb : ∀ q ∈ b, q.1 ≤ q.2) (u : List K) (hl : u.length = b.length)
    (hu : ∀ v ∈ u, 0 ≤ v ∧ v ≤ 1) : Inside b ((uniformPoint b u).map .fin) := by
  refine ⟨_, rfl, ?_⟩
  rw [List.forall₂_iff_get]
  unfold uniformPoint
  refine ⟨by simp [hl], fun i h1 h2 => ?_⟩
  simp only [List.get_eq_getElem, List.getElem_zipWith]
  have hq := hb b[i] (List.getElem_mem _)
  have hi : i < u.length := by simp at h1; omega
  obtain ⟨h3, h4⟩ := hu (u[i]) (List.getElem_mem _)
  have hw : 0 ≤ (b[i].2 - b[i].1) * u[i] := mul_nonneg (by linarith) h3
  have hw' : 0 ≤ (b[i].2 - b[i].1) * (1 - u[i]) := mul_nonneg (by linarith) (by linarith)
  constructor <;> linarith [mul_one (b[i].2 - b[i].1), mul_sub (b[i].2 - b[i].1) 1 u[i]]

theorem clip_inside {lo hi v : K} (h : lo ≤ hi) : lo ≤ clip lo hi v ∧ clip lo hi v ≤ hi := by
  unfold clip
  exact ⟨le_min (le_max_right _ _) h, min_le_right _ _⟩

/-- What the random numbers must satisfy: the right number of them, and the unit interval. -/
structure Rng.Ok {G : Type*} (R : Rng K G) (d : ℕ) : Prop where
  raw : ∀ tag g, (R.raw tag g).1.length = d
  unif : ∀ g, (R.unif d g).1.length = d ∧ ∀ v ∈ (R.unif d g).1, 0 ≤ v ∧ v ≤ 1

/-- The same bounds everywhere in a proposer. -/
def Proposer.Uses (b : Box K) : Proposer K → Prop
  | .checked _ b' => b' = b
  | .uniform b' => b' = b
  | .part b' _ p => b' = b ∧ p.Uses b
  | .centroids b' _ _ => b' = b

theorem uses_updateBounds (b : Box K) : ∀ p : Proposer K, (p.updateBounds b).Uses b
  | .checked _ _ => rfl
  | .uniform _ => rfl
  | .part _ _ p => ⟨rfl, uses_updateBounds b p⟩
  | .centroids _ _ _ => rfl

theorem uses_update (b : Box K) (X : List (List K)) : ∀ p : Proposer K, p.Uses b → (p.update X).Uses b
  | .checked _ _, h => h
  | .uniform _, h => h
  | .part _ _ p, h => ⟨h.1, uses_update b X p h.2⟩
  | .centroids _ _ _, h => h

theorem get_inside {G : Type*} (R : Rng K G) (b : Box K) (hb : ∀ q ∈ b, q.1 ≤ q.2) (hR : R.Ok b.length) (fuel : ℕ) :
    ∀ (p : Proposer K), p.Uses b → ∀ (g : G) {x : List (Ext K)} {g' : G}, p.get R fuel g = some (.ok x, g') → Inside b x
  | .checked tag b', hp, g, x, g', h => by
    have hp : b' = b := hp
    subst hp
    unfold Proposer.get at h
    cases hc : checkLoop R tag b' fuel g with
    | none => rw [hc] at h; cases h
    | some q =>
      rw [hc] at h
      cases h
      exact checkLoop_inside R tag b' (hR.raw tag) fuel g (x := q.1) (g' := q.2) hc
  | .uniform b', hp, g, x, g', h => by
    have hp : b' = b := hp
    subst hp
    unfold Proposer.get at h
    cases h
    exact uniform_inside b' hb _ (hR.unif g).1 (hR.unif g).2
  | .part b' rpf p, hp, g, x, g', h => by
    obtain ⟨hp1, hp2⟩ := hp
    subst hp1
    unfold Proposer.get at h
    dsimp only at h
    split_ifs at h with hc
    · exact get_inside R b' hb hR fuel p hp2 _ h
    · cases h
      exact uniform_inside b' hb _ (hR.unif _).1 (hR.unif _).2
  | .centroids b' t t', hp, g, x, g', h => by
    have hp : b' = b := hp
    subst hp
    unfold Proposer.get at h
    split at h
    · cases h
    · cases h
      refine ⟨_, rfl, ?_⟩
      rw [List.forall₂_iff_get]
      refine ⟨by simp, fun i h1 h2 => ?_⟩
      have hd : b'.getD i (0, 0) = b'[i] := by simp [List.getD, List.getElem?_eq_getElem h2]
      simp only [List.get_eq_getElem, List.getElem_map, List.getElem_range, hd]
      exact clip_inside (hb _ (List.getElem_mem _))

/-- **C44**, partial: after `update_bounds`, followed by any number of `update`s, every point returned by `get` is inside the bounds,
whatever the generator returns and however the proposers are nested. (Missing: a `PartialProposer` on which `update_bounds` was
never called, see `C44_partial_counterexample`.) -/
theorem C44_inside_partial {G : Type*} (R : Rng K G) (b : Box K) (hb : ∀ q ∈ b, q.1 ≤ q.2) (hR : R.Ok b.length) (p : Proposer K)
    (Xs : List (List (List K))) (fuel : ℕ) (g : G) {x : List (Ext K)} {g' : G}
    (h : (Xs.foldl (fun p X => p.update X) (p.updateBounds b)).get R fuel g = some (.ok x, g')) : Inside b x := by
  have hu : ∀ (Xs : List (List (List K))) (p : Proposer K), p.Uses b → (Xs.foldl (fun p X => p.update X) p).Uses b := by
    intro Xs
    induction Xs with
    | nil => intro p hp; exact hp
    | cons X Xs ih => intro p hp; exact ih _ (uses_update b X p hp)
  exact get_inside R b hb hR fuel _ (hu Xs _ (uses_updateBounds b p)) g h

/-- C44: the loop of the decorator ends at the first proposal inside. -/
theorem C44_first_inside {G : Type*} (R : Rng K G) (tag : ℕ) (b : Box K) (n : ℕ) : ∀ (g : G) (fuel : ℕ), n < fuel →
    (∀ i < n, Tools.isInBounds (ext b) (R.raw tag ((fun g => (R.raw tag g).2)^[i] g)).1 = false) →
    Tools.isInBounds (ext b) (R.raw tag ((fun g => (R.raw tag g).2)^[n] g)).1 = true →
    checkLoop R tag b fuel g = some (R.raw tag ((fun g => (R.raw tag g).2)^[n] g)) := by
  induction n with
  | zero =>
    intro g fuel hf _ h
    cases fuel with
    | zero => omega
    | succ fuel =>
      unfold checkLoop
      dsimp only
      rw [if_pos (by exact h)]
      rfl
  | succ n ih =>
    intro g fuel hf h1 h2
    cases fuel with
    | zero => omega
    | succ fuel =>
      unfold checkLoop
      dsimp only
      rw [if_neg (by rw [show (R.raw tag g).1 = (R.raw tag ((fun g => (R.raw tag g).2)^[0] g)).1 from rfl, h1 0 (by omega)]; simp)]
      exact ih _ fuel (by omega) (fun i hi => h1 (i + 1) (by omega)) h2

/-- Random numbers of the examples: the state is a list of numbers, used one after the other. -/
def exRng : Rng ℚ (List ℚ) where
  raw _ g := ([.fin (g.headD 0)], g.tail)
  unif n g := (List.replicate n (1 / 2), g)
  coin g := (g.headD 0, g.tail)
  choice n m g := (List.range m, g)
  expon n g := (List.replicate n 3, g)

/-- **C44** is false of a new `PartialProposer`: it uses its bounds only in the uniform part. -/
theorem C44_partial_counterexample :
    (Proposer.part [(0, 1)] (1 / 4) (.uniform [(10, 20)])).get exRng 1 [1 / 2] = some (.ok [.fin 15], []) := by
  decide +kernel

/-- C44: the centroids fail between the first `update` and the next `update_bounds`. -/
theorem C44_centroids_order (X : List (List ℚ)) (b : Box ℚ) (g : List ℚ) :
    ((Proposer.centroids b none none).update X).get exRng 1 g = some (.error .typeError, g) := rfl

/-- C44: proposals outside are discarded; centroids are clipped. -/
example : exRng.Ok 1 ∧ ((Proposer.checked 0 [(7, 8)]).updateBounds [(0, 1)]).get exRng 5 [3, -1, 1 / 3, 1 / 4] = some (.ok [.fin (1 / 3)], [1 / 4]) ∧
    (((Proposer.centroids [(0, 1)] none none).update [[0], [4]]).updateBounds [(0, 5 / 2)]).get exRng 5 [] = some (.ok [.fin 0], []) := by
  refine ⟨⟨fun _ _ => rfl, fun g => ⟨rfl, fun v hv => ?_⟩⟩, ?_, ?_⟩
  · simp [exRng] at hv
    rw [hv]; norm_num
  · decide +kernel
  · decide +kernel

theorem exRng_ok : exRng.Ok 1 := ⟨fun _ _ => rfl, fun g => ⟨rfl, fun v hv => by simp [exRng] at hv; rw [hv]; norm_num⟩⟩

example (x : List (Ext ℚ)) (g' : List ℚ) (h : ((Proposer.checked 0 [(7, 8)]).updateBounds [(0, 1)]).get exRng 5 [3, -1, 1 / 3, 1 / 4] = some (.ok x, g')) :
    Inside [(0, 1)] x := C44_inside_partial exRng [(0, 1)] (by norm_num) exRng_ok (.checked 0 [(7, 8)]) [] 5 _ h

/-- The third draw is the first one inside. -/
example : checkLoop exRng 0 [(0, 1)] 9 [3, -1, 1 / 3, 1 / 4] = some ([.fin (1 / 3)], [1 / 4]) :=
  C44_first_inside exRng 0 [(0, 1)] 2 [3, -1, 1 / 3, 1 / 4] 9 (by decide) (by decide +kernel) (by decide +kernel)

end GPry.Proposal
