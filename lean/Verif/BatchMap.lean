import Verif.BatchPre
import Verif.BatchProps
import Verif.ShiftProps
import Verif.UnitsProps
import Verif.OrderProps

set_option linter.all false

/-!
# `BatchOptimizer.multi_add` follows a change of variables (C143, C144, C150)

The acquisition engine is one of the components that the theorems about whole runs take as following the change. Here this is proved of
`BatchOptimizer`, for acquisition functions that follow it.
-/

namespace GPry.Batch

open GPry Spmd

section Map
variable {S P B S' P' B' K : Type} [LT K] [DecidableLT K] [Neg K]

/-- The components of the second engine do to the changed surrogates and points what those of the first do to the original ones. -/
structure Follows (γ : S → S') (u : P → P') (β : B → B') (l : Ext K → Ext K) (c : Cfg S P B K) (c' : Cfg S' P' B' K) : Prop where
  isIn : ∀ b x, c'.env.isIn (β b) (u x) = c.env.isIn b x
  train : ∀ s, c'.env.train (γ s) = (c.env.train s).map u
  acq : ∀ s x, c'.env.acq (γ s) (u x) = c.env.acq s x
  loc : ∀ s x b, c'.env.loc (γ s) (u x) (β b) = (u (c.env.loc s x b).1, (c.env.loc s x b).2)
  prior : c'.env.prior = β c.env.prior
  nRep : c'.env.nRep = c.env.nRep
  nRestarts : c'.nRestarts = c.nRestarts
  props : ∀ i j, c'.props i j = (c.props i j).map u
  predict : ∀ s x, c'.predict (γ s) (u x) = l (c.predict s x)
  append : ∀ s x y, c'.append (γ s) (u x) (l y) = (c.append s x y).map γ

variable {γ : S → S'} {u : P → P'} {β : B → B'} {l : Ext K → Ext K} {c : Cfg S P B K} {c' : Cfg S' P' B' K}

theorem propose_map {acq : P → Ext K} {acq' : P' → Ext K} (h : ∀ x, acq' (u x) = acq x) (n : ℕ) :
    ∀ (ps : List P) (acc : List (P × Ext K)), propose acq' n (ps.map u) (acc.map fun q => (u q.1, q.2)) = (propose acq n ps acc).map fun q => (u q.1, q.2)
  | [], acc => rfl
  | x :: ps, acc => by
    simp only [List.map_cons, propose, h]
    split_ifs with h1 h2 h3 h3
    · exact propose_map h n ps acc
    · simp
    · simp at h2 h3; omega
    · simp at h2 h3; omega
    · rw [← propose_map h n ps]; simp

theorem optimise_map (h : Follows γ u β l c c') (obj : Option S) (g : S) (i : ℕ) (bounds : Option B) (props : List P) :
    optimise c'.env (obj.map γ) (γ g) i (bounds.map β) (props.map u) =
      ((optimise c.env obj g i bounds props).1.map γ, (optimise c.env obj g i bounds props).2.map fun q => (u q.1, q.2)) := by
  unfold optimise
  have ho : (obj.map γ).getD (γ g) = γ (obj.getD g) := by cases obj <;> rfl
  have hb : (bounds.map β).getD c'.env.prior = β (bounds.getD c.env.prior) := by cases bounds <;> simp [h.prior]
  simp only [ho, hb, Option.map_some, Prod.mk.injEq, true_and, h.train, List.length_map]
  by_cases hi : i = 0
  · simp only [hi, if_true]
    cases bounds with
    | none => simp only [Option.map_none]; split_ifs <;> rfl
    | some b =>
      simp only [Option.map_some, ← List.map_reverse, List.find?_map]
      rw [show (c'.env.isIn (β b) ∘ u) = c.env.isIn b from funext fun x => h.isIn b x]
      cases (c.env.train g).reverse.find? (c.env.isIn b) with
      | none => rfl
      | some x0 =>
        simp only [Option.map_some, Option.getD_some]
        rw [h.loc]
        rfl
  · simp only [if_neg hi]
    have hp := propose_map (u := u) (fun x => h.acq g x) c.env.nRep props []
    rw [List.map_nil] at hp
    rw [h.nRep, hp, List.map_map]
    rw [show ((Prod.snd : P' × Ext K → Ext K) ∘ fun q : P × Ext K => (u q.1, q.2)) = Prod.snd from rfl]
    cases argmax ((propose (c.env.acq g) c.env.nRep props []).map Prod.snd) with
    | some k =>
      simp only [List.getElem?_map]
      cases (propose (c.env.acq g) c.env.nRep props [])[k]? with
      | none => rfl
      | some q => simp only [Option.map_some, h.loc]; rfl
    | none =>
      simp only [List.getLast?_map]
      cases props.getLast? with
      | none => rfl
      | some x => simp only [Option.map_some, h.acq]; rfl

theorem rankLoop_map (h : Follows γ u β l c c') (g : S) (b : B) (props : ℕ → List P) (props' : ℕ → List P') (hp : ∀ j, props' j = (props j).map u) :
    ∀ (is : List ℕ) (obj : Option S), rankLoop c'.env (γ g) (β b) props' (obj.map γ) is =
      ((rankLoop c.env g b props obj is).1.map γ, (rankLoop c.env g b props obj is).2.map fun qs => qs.map fun q => (u q.1, q.2))
  | [], obj => rfl
  | i :: is, obj => by
    have ho := optimise_map h obj g i (some b) (props i)
    rw [Option.map_some, ← hp] at ho
    simp only [rankLoop]
    rw [ho]
    rcases optimise c.env obj g i (some b) (props i) with ⟨obj1, e | q⟩
    · rfl
    · have hr := rankLoop_map h g b props props' hp is obj1
      dsimp only [Except.map]
      rw [hr]
      rcases rankLoop c.env g b props obj1 is with ⟨obj2, e | qs⟩ <;> rfl

theorem choose_map (h : Follows γ u β l c c') (last : Bool) (s : S) (cands : List (P × Ext K)) :
    choose c' last (γ s) (cands.map fun q => (u q.1, q.2)) =
      (choose c last s cands).map fun r => (γ r.1, u r.2.1, l r.2.2.1, r.2.2.2) := by
  unfold choose
  rw [List.map_map, show ((Prod.snd : P' × Ext K → Ext K) ∘ fun q : P × Ext K => (u q.1, q.2)) = Prod.snd from rfl]
  cases pick (cands.map Prod.snd) with
  | none => rfl
  | some k =>
    simp only [List.getElem?_map]
    cases cands[k]? with
    | none => rfl
    | some q =>
      obtain ⟨x, v⟩ := q
      simp only [Option.map_some, h.predict, h.append]
      cases last
      · simp only [Bool.false_eq_true, if_false]
        cases c.append s x (c.predict s x) <;> rfl
      · rfl

theorem serial_map (h : Follows γ u β l c c') (b : B) (n : ℕ) : ∀ (k : ℕ) (s : S),
    serial c' (β b) n k (γ s) = (serial c b n k s).map fun r => (γ r.1, r.2.map fun o => (u o.1, l o.2.1, o.2.2))
  | 0, s => rfl
  | k + 1, s => by
    have hr := rankLoop_map h s b (c.props (n - (k + 1))) (c'.props (n - (k + 1))) (fun j => h.props _ j) (List.range c.nRestarts) none
    simp only [serial]
    rw [h.nRestarts, show (none : Option S') = (none : Option S).map γ from rfl, hr]
    dsimp only
    cases (rankLoop c.env s b (c.props (n - (k + 1))) none (List.range c.nRestarts)).2 with
    | error e => rfl
    | ok cands =>
      dsimp only [Except.map]
      rw [choose_map h]
      cases choose c (k == 0) s cands with
      | error e => rfl
      | ok so =>
        obtain ⟨s', o⟩ := so
        dsimp only [Except.map]
        rw [serial_map h b n k s']
        cases serial c b n k s' <;> rfl

/-- The batch proposed for the changed surrogate is the changed batch. -/
theorem multiAdd_map (h : Follows γ u β l c c') (bounds : Option B) (n : ℤ) (s : S) :
    multiAdd c' (bounds.map β) n (γ s) = (multiAdd c bounds n s).map fun r => (γ r.1, r.2.map fun o => (u o.1, l o.2.1, o.2.2)) := by
  unfold multiAdd
  rw [show (bounds.map β).getD c'.env.prior = β (bounds.getD c.env.prior) by cases bounds <;> simp [h.prior]]
  split_ifs
  · rfl
  · exact serial_map h _ _ _ s

end Map

/-! ## The regressor -/

section Reg
open Copy
variable {P PX Θ K B : Type} [Field K] [LinearOrder K]

/-- A change of the regressor, of the calls and of the trust region. -/
def mapObj (γ : Gpr.State P PX Θ K → Gpr.State P PX Θ K) (ω : B → B) (o : Obj P PX Θ K B) : Obj P PX Θ K B := ⟨γ o.st, o.clip, o.trust.map ω⟩

def mapPair (γ : Gpr.State P PX Θ K → Gpr.State P PX Θ K) (ω : B → B) (w : Pair P PX Θ K B) : Pair P PX Θ K B := ⟨mapObj γ ω w.orig, mapObj γ ω w.copy⟩

/-- `append_to_data` of lies follows the change if the regressor and the trust region do. -/
theorem appendLie_map (cfg : Gpr.Cfg P PX Θ K) (region region' : Option (List P → List (Ext K) → B)) (γ : Gpr.State P PX Θ K → Gpr.State P PX Θ K) (ω : B → B)
    (u : P → P) (l : Ext K → Ext K) (κ : Gpr.Call P K → Gpr.Call P K) (hA : ∀ st q, Gpr.append cfg (γ st) (κ q) = (γ (Gpr.append cfg st q).1, (Gpr.append cfg st q).2))
    (hk : ∀ q : Gpr.Call P K, κ q = { q with batch := q.batch.map fun b => (b.1.map u, b.2.map l) })
    (hn : ∀ st, (γ st).noise = st.noise) (hf : ∀ st, (γ st).nLastFinite = st.nLastFinite)
    (hx : ∀ st, (γ st).xTrain = st.xTrain.map u) (hy : ∀ st, (γ st).yTrain = st.yTrain.map l)
    (hs : ∀ src dst, γ { dst with px := src.px, py := src.py } = { γ dst with px := (γ src).px, py := (γ src).py })
    (hr : region' = none ∧ region = none ∨ ∃ f f', region = some f ∧ region' = some f' ∧ ∀ xs ys, f' (xs.map u) (ys.map l) = ω (f xs ys))
    (w : Pair P PX Θ K B) (x : P) (y : Ext K) :
    appendLie cfg region' (mapPair γ ω w) (u x) (l y) = (appendLie cfg region w x y).map (mapPair γ ω) := by
  have hc : lieCall (mapPair γ ω w).copy.st (u x) (l y) = κ (lieCall w.copy.st x y) := by
    rw [hk]
    unfold lieCall
    simp only [mapPair, mapObj, hn, Option.map_some, List.map_cons, List.map_nil]
  have ha : ∀ (o : Obj P PX Θ K B) (q : Gpr.Call P K), (mapObj γ ω o).append cfg region' (κ q) = (mapObj γ ω (o.append cfg region q).1, (o.append cfg region q).2) := by
    intro o q
    unfold Obj.append
    rw [show (mapObj γ ω o).st = γ o.st from rfl, hA]
    rcases Gpr.append cfg o.st q with ⟨st, _ | e⟩
    · dsimp only
      have hb : (κ q).batch.isNone = q.batch.isNone := by rw [hk]; simp
      have hfi : (κ q).fit = q.fit := by rw [hk]
      rw [hf, hb, hfi]
      split_ifs
      · rfl
      · rcases hr with ⟨rfl, rfl⟩ | ⟨f, f', rfl, rfl, hff⟩
        · rfl
        · simp only [hx, hy, hff]; rfl
    · rfl
  unfold appendLie
  rw [hc, show (mapPair γ ω w).copy = mapObj γ ω w.copy from rfl, ha]
  dsimp only
  cases (w.copy.append cfg region (lieCall w.copy.st x y)).2 with
  | some e => rfl
  | none =>
    simp only [Except.map, Pair.append, if_true]
    rw [show (mapPair γ ω w).copy = mapObj γ ω w.copy from rfl, ha]
    have he : ∀ a b : Obj P PX Θ K B, share (mapObj γ ω a) (mapObj γ ω b) = mapObj γ ω (share a b) := by
      intro a b
      have := hs a.st b.st
      unfold share mapObj
      dsimp only
      rw [this]
    rw [show (mapPair γ ω w).orig = mapObj γ ω w.orig from rfl, he]
    rfl

end Reg

/-! ## The theorems -/

section Shift
open Copy
variable {P PX Θ K B B' : Type} [Field K] [LinearOrder K] [IsStrictOrderedRing K]

/-- **C143**, gp_acquisition.py:388-500: with a constant added to the log-posterior `BatchOptimizer` proposes the same points with the same values of the
acquisition function, and the lies take up the constant, if the constant leaves the acquisition function as it is and the predictions follow it. Local
optimiser and proposals are any functions. -/
theorem C143_batch (cfg : Gpr.Cfg P PX Θ K) (c : K) (hc : Shift.Equivariant cfg c) (region : Option (List P → List (Ext K) → B))
    (hr : ∀ f, region = some f → ∀ xs ys, f xs (ys.map (Shift.shift c)) = f xs ys)
    (e : Cfg (Pair P PX Θ K B) P B' K) (he : e.append = appendLie cfg region) (htrain : e.env.train = fun w => w.copy.st.xTrain)
    (opt : (P → Ext K) → P → B' → P × Ext K) (hloc : e.env.loc = fun w => opt (e.env.acq w))
    (hacq : ∀ w x, e.env.acq (mapPair (Shift.shiftS c) id w) x = e.env.acq w x)
    (hpred : ∀ w x, e.predict (mapPair (Shift.shiftS c) id w) x = Shift.shift c (e.predict w x))
    (bounds : Option B') (n : ℤ) (o : Obj P PX Θ K B) :
    multiAdd e bounds n ⟨mapObj (Shift.shiftS c) id o, (mapObj (Shift.shiftS c) id o).deepcopy⟩ =
        (multiAdd e bounds n ⟨o, o.deepcopy⟩).map (fun r => (mapPair (Shift.shiftS c) id r.1, r.2.map fun t => (t.1, Shift.shift c t.2.1, t.2.2))) ∧
      ∀ (p : ℕ), 0 < p → ∀ w outs, multiAdd e bounds n ⟨o, o.deepcopy⟩ = .ok (w, outs) →
        Runs (fun r : Fin p => multiAddPar e bounds n ⟨o, o.deepcopy⟩ p r.val) (fun _ => .ok outs) ∧
        Runs (fun r : Fin p => multiAddPar e bounds n ⟨mapObj (Shift.shiftS c) id o, (mapObj (Shift.shiftS c) id o).deepcopy⟩ p r.val)
          fun _ => .ok (outs.map fun t => (t.1, Shift.shift c t.2.1, t.2.2)) := by
  have hF : Follows (mapPair (Shift.shiftS c) id) id id (Shift.shift c) e e :=
    { isIn := fun _ _ => rfl
      train := fun w => by rw [htrain]; simp [mapPair, mapObj, Shift.shiftS]
      acq := hacq
      loc := fun w x b => by rw [hloc]; simp only [id]; rw [show e.env.acq (mapPair (Shift.shiftS c) id w) = e.env.acq w from funext (hacq w)]
      prior := rfl
      nRep := rfl
      nRestarts := rfl
      props := fun i j => (List.map_id _).symm
      predict := hpred
      append := fun w x y => by
        rw [he]
        refine appendLie_map cfg region region (Shift.shiftS c) id id (Shift.shift c) (Shift.shiftC c) (Shift.C143_append cfg c hc) (fun q => ?_) (fun _ => rfl) (fun _ => rfl)
          (fun st => by simp [Shift.shiftS]) (fun _ => rfl) (fun _ _ => rfl) ?_ w x y
        · simp [Shift.shiftC]
        · cases hreg : region with
          | none => exact .inl ⟨rfl, rfl⟩
          | some f => exact .inr ⟨f, f, rfl, rfl, fun xs ys => by rw [List.map_id]; exact hr f hreg xs ys⟩ }
  have h0 := multiAdd_map hF bounds n ⟨o, o.deepcopy⟩
  have hd : mapPair (Shift.shiftS c) id (⟨o, o.deepcopy⟩ : Pair P PX Θ K B) = ⟨mapObj (Shift.shiftS c) id o, (mapObj (Shift.shiftS c) id o).deepcopy⟩ := rfl
  rw [hd, show bounds.map id = bounds by cases bounds <;> rfl] at h0
  refine ⟨h0, fun p hp w outs h => ⟨C58_parallel e bounds n _ _ _ p hp h, C58_parallel e bounds n _ _ _ p hp (h0.trans (by rw [h]; rfl))⟩⟩

end Shift

section Norm
open Copy BatchPre
variable {d : ℕ} {PX Θ B : Type}

/-- `BatchOptimizer` with `preprocessing_X` the `Normalize_bounds` of the prior (run.py:318, 377): the local optimiser works in its coordinates. -/
noncomputable def engine (prior : Box d) (opt : Opt d) (acq predict : Pair (Pt d) PX Θ ℝ B → Pt d → Ext ℝ) (nRep nRestarts : ℕ) (props : ℕ → ℕ → List (Pt d))
    (cfg : Gpr.Cfg (Pt d) PX Θ ℝ) (region : Option (List (Pt d) → List (Ext ℝ) → B)) : Cfg (Pair (Pt d) PX Θ ℝ B) (Pt d) (Box d) ℝ where
  env := env [.norm (fun i => (prior i).1) fun i => (prior i).2] opt acq (fun w => w.copy.st.xTrain) prior nRep
  nRestarts := nRestarts
  props := props
  predict := predict
  append := appendLie cfg region

/-- Bounds in other units. -/
def affB (a b : Fin d → ℝ) (box : Box d) : Box d := fun i => (a i * (box i).1 + b i, a i * (box i).2 + b i)

theorem loc_aff (a b : Fin d → ℝ) (ha : ∀ i, 0 < a i) {G G' : Type} (prior : Box d) (opt : Opt d) (acq : G → Pt d → Ext ℝ) (acq' : G' → Pt d → Ext ℝ) (g : G) (g' : G')
    (h : ∀ x, acq' g' (Units.aff a b x) = acq g x) (x : Pt d) (box : Box d) :
    loc [.norm (fun i => (affB a b prior i).1) fun i => (affB a b prior i).2] opt acq' g' (Units.aff a b x) (affB a b box) =
      (Units.aff a b (loc [.norm (fun i => (prior i).1) fun i => (prior i).2] opt acq g x box).1,
        (loc [.norm (fun i => (prior i).1) fun i => (prior i).2] opt acq g x box).2) := by
  have hi : ∀ z, PreX.inv [.norm (fun i => (affB a b prior i).1) fun i => (affB a b prior i).2] z =
      Units.aff a b (PreX.inv [.norm (fun i => (prior i).1) fun i => (prior i).2] z) := by
    intro z
    funext i
    simp only [PreX.inv, List.reverse_cons, List.reverse_nil, List.nil_append, List.foldl_cons, List.foldl_nil, Stage.inv, affB, Units.aff]
    ring
  have ht : PreX.tr [.norm (fun i => (affB a b prior i).1) fun i => (affB a b prior i).2] (Units.aff a b x) =
      PreX.tr [.norm (fun i => (prior i).1) fun i => (prior i).2] x := by
    funext i
    simp only [PreX.tr, List.foldl_cons, List.foldl_nil, Stage.tr, affB, Units.aff]
    rw [show a i * x i + b i - (a i * (prior i).1 + b i) = a i * (x i - (prior i).1) by ring,
      show a i * (prior i).2 + b i - (a i * (prior i).1 + b i) = a i * ((prior i).2 - (prior i).1) by ring, mul_div_mul_left _ _ (ha i).ne']
  have hobj : objective [.norm (fun i => (affB a b prior i).1) fun i => (affB a b prior i).2] (acq' g') =
      objective [.norm (fun i => (prior i).1) fun i => (prior i).2] (acq g) := by
    funext z
    unfold objective
    rw [hi, h]
  unfold loc
  rw [hobj, ht]
  simp only [hi]
  rfl

/-- **C144**, gp_acquisition.py:388-500: in other units of the parameters `BatchOptimizer` proposes the same points in the new units, with the same lies and the same values
of the acquisition function, if the acquisition function and the predictions follow the units. The local optimiser is any function: it works with the same objective, starting
points and bounds, those of `Normalize_bounds`. The proposals are assumed to come in the new units. -/
theorem C144_batch (a b : Fin d → ℝ) (ha : ∀ i, 0 < a i) (v : PX → PX) (ω : B → B) (cfg : Gpr.Cfg (Pt d) PX Θ ℝ) (hc : Units.Equivariant cfg (Units.aff a b) v)
    (region region' : Option (List (Pt d) → List (Ext ℝ) → B))
    (hr : region' = none ∧ region = none ∨ ∃ f f', region = some f ∧ region' = some f' ∧ ∀ xs ys, f' (xs.map (Units.aff a b)) ys = ω (f xs ys))
    (prior : Box d) (opt : Opt d) (acq acq' pred pred' : Pair (Pt d) PX Θ ℝ B → Pt d → Ext ℝ)
    (hacq : ∀ w x, acq' (mapPair (Units.conv (Units.aff a b) v) ω w) (Units.aff a b x) = acq w x)
    (hpred : ∀ w x, pred' (mapPair (Units.conv (Units.aff a b) v) ω w) (Units.aff a b x) = pred w x)
    (nRep nRestarts : ℕ) (props : ℕ → ℕ → List (Pt d)) (bounds : Option (Box d)) (n : ℤ) (o : Obj (Pt d) PX Θ ℝ B) :
    multiAdd (engine (affB a b prior) opt acq' pred' nRep nRestarts (fun i j => (props i j).map (Units.aff a b)) cfg region') (bounds.map (affB a b)) n
        ⟨mapObj (Units.conv (Units.aff a b) v) ω o, (mapObj (Units.conv (Units.aff a b) v) ω o).deepcopy⟩ =
      (multiAdd (engine prior opt acq pred nRep nRestarts props cfg region) bounds n ⟨o, o.deepcopy⟩).map
        fun r => (mapPair (Units.conv (Units.aff a b) v) ω r.1, r.2.map fun t => (Units.aff a b t.1, t.2)) := by
  have hF : Follows (mapPair (Units.conv (Units.aff a b) v) ω) (Units.aff a b) (affB a b) id (engine prior opt acq pred nRep nRestarts props cfg region)
      (engine (affB a b prior) opt acq' pred' nRep nRestarts (fun i j => (props i j).map (Units.aff a b)) cfg region') :=
    { isIn := fun box x => by
        simp only [engine, env, decide_eq_decide]
        unfold InBox
        refine forall_congr' fun j => ?_
        simp only [affB, Units.aff]
        constructor
        · rintro ⟨h1, h2⟩
          exact ⟨le_of_mul_le_mul_left (by linarith) (ha j), le_of_mul_le_mul_left (by linarith) (ha j)⟩
        · rintro ⟨h1, h2⟩
          have := mul_le_mul_of_nonneg_left h1 (ha j).le
          have := mul_le_mul_of_nonneg_left h2 (ha j).le
          exact ⟨by linarith, by linarith⟩
      train := fun w => rfl
      acq := hacq
      loc := fun w x box => loc_aff a b ha prior opt acq acq' w _ (hacq w) x box
      prior := rfl
      nRep := rfl
      nRestarts := rfl
      props := fun i j => rfl
      predict := hpred
      append := fun w x y => by
        refine appendLie_map cfg region region' (Units.conv (Units.aff a b) v) ω (Units.aff a b) id (Units.convC (Units.aff a b)) (Units.C144_append cfg _ v hc) (fun q => ?_)
          (fun _ => rfl) (fun _ => rfl) (fun st => rfl) (fun _ => (List.map_id _).symm) (fun _ _ => rfl) ?_ w x y
        · simp [Units.convC]
        · rcases hr with h | ⟨f, f', h1, h2, h3⟩
          · exact .inl h
          · exact .inr ⟨f, f', h1, h2, fun xs ys => by rw [List.map_id]; exact h3 xs ys⟩ }
  exact multiAdd_map hF bounds n ⟨o, o.deepcopy⟩

/-- **C150**, gp_acquisition.py:388-500: with the parameters in another order `BatchOptimizer` proposes the same points in that order, if the acquisition function, the
predictions and the local optimiser follow the order. -/
theorem C150_batch (σ : Equiv.Perm (Fin d)) (v : PX → PX) (z : Θ → Θ) (ω : B → B) (cfg : Gpr.Cfg (Pt d) PX Θ ℝ) (hc : Order.Equivariant cfg (Order.re σ) v z)
    (region region' : Option (List (Pt d) → List (Ext ℝ) → B))
    (hr : region' = none ∧ region = none ∨ ∃ f f', region = some f ∧ region' = some f' ∧ ∀ xs ys, f' (xs.map (Order.re σ)) ys = ω (f xs ys))
    (prior : Box d) (opt opt' : Opt d) (hopt : ∀ f x box, opt' (fun y => f (Order.re σ.symm y)) (Order.re σ x) (Order.re σ box) = (Order.re σ (opt f x box).1, (opt f x box).2))
    (acq acq' pred pred' : Pair (Pt d) PX Θ ℝ B → Pt d → Ext ℝ)
    (hacq : ∀ w x, acq' (mapPair (Order.conv (Order.re σ) v z) ω w) (Order.re σ x) = acq w x)
    (hpred : ∀ w x, pred' (mapPair (Order.conv (Order.re σ) v z) ω w) (Order.re σ x) = pred w x)
    (nRep nRestarts : ℕ) (props : ℕ → ℕ → List (Pt d)) (bounds : Option (Box d)) (n : ℤ) (o : Obj (Pt d) PX Θ ℝ B) :
    multiAdd (engine (Order.re σ prior) opt' acq' pred' nRep nRestarts (fun i j => (props i j).map (Order.re σ)) cfg region') (bounds.map (Order.re σ)) n
        ⟨mapObj (Order.conv (Order.re σ) v z) ω o, (mapObj (Order.conv (Order.re σ) v z) ω o).deepcopy⟩ =
      (multiAdd (engine prior opt acq pred nRep nRestarts props cfg region) bounds n ⟨o, o.deepcopy⟩).map
        fun r => (mapPair (Order.conv (Order.re σ) v z) ω r.1, r.2.map fun t => (Order.re σ t.1, t.2)) := by
  have hback : ∀ y : Pt d, Order.re σ (Order.re σ.symm y) = y := fun y => funext fun i => by simp [Order.re]
  have hF : Follows (mapPair (Order.conv (Order.re σ) v z) ω) (Order.re σ) (Order.re σ) id (engine prior opt acq pred nRep nRestarts props cfg region)
      (engine (Order.re σ prior) opt' acq' pred' nRep nRestarts (fun i j => (props i j).map (Order.re σ)) cfg region') :=
    { isIn := fun box x => by
        simp only [engine, env, decide_eq_decide]
        unfold InBox
        exact ⟨fun h j => by simpa [Order.re] using h (σ.symm j), fun h j => h (σ j)⟩
      train := fun w => rfl
      acq := hacq
      loc := fun w x box => by
        have hobj : objective [.norm (fun i => (Order.re σ prior i).1) fun i => (Order.re σ prior i).2] (acq' (mapPair (Order.conv (Order.re σ) v z) ω w)) =
            fun y => objective [.norm (fun i => (prior i).1) fun i => (prior i).2] (acq w) (Order.re σ.symm y) := by
          funext y
          unfold objective
          rw [← hacq w]
          congr 2
          funext i
          simp [PreX.inv, Stage.inv, Order.re]
        show loc _ opt' acq' _ _ _ = _
        unfold loc
        rw [hobj]
        have ht : PreX.tr [.norm (fun i => (Order.re σ prior i).1) fun i => (Order.re σ prior i).2] (Order.re σ x) =
            Order.re σ (PreX.tr [.norm (fun i => (prior i).1) fun i => (prior i).2] x) := rfl
        have hb : PreX.trBounds [.norm (fun i => (Order.re σ prior i).1) fun i => (Order.re σ prior i).2] (Order.re σ box) =
            Order.re σ (PreX.trBounds [.norm (fun i => (prior i).1) fun i => (prior i).2] box) := rfl
        rw [ht, hb, hopt]
        rfl
      prior := rfl
      nRep := rfl
      nRestarts := rfl
      props := fun i j => rfl
      predict := hpred
      append := fun w x y => by
        refine appendLie_map cfg region region' (Order.conv (Order.re σ) v z) ω (Order.re σ) id (Order.convC (Order.re σ)) (Order.C150_append cfg _ v z hc) (fun q => ?_)
          (fun _ => rfl) (fun _ => rfl) (fun st => rfl) (fun _ => (List.map_id _).symm) (fun _ _ => rfl) ?_ w x y
        · simp [Order.convC]
        · rcases hr with h | ⟨f, f', h1, h2, h3⟩
          · exact .inl h
          · exact .inr ⟨f, f', h1, h2, fun xs ys => by rw [List.map_id]; exact h3 xs ys⟩ }
  exact multiAdd_map hF bounds n ⟨o, o.deepcopy⟩

end Norm

/-! ## Examples -/

section Ex
open Copy

/-- Distance to 3, and not twice at the same point; the lie is the last value. One step of the optimiser. -/
def mapEng : Cfg (Pair ℚ Unit ℕ ℚ Unit) ℚ Unit ℚ :=
  let acq : Pair ℚ Unit ℕ ℚ Unit → ℚ → Ext ℚ := fun w x => .fin (-|x - 3| - w.copy.st.xTrain.count x)
  { env := { isIn := fun _ _ => true, train := fun w => w.copy.st.xTrain, acq := acq,
             loc := fun w x _ => if Ext.lt (acq w x) (acq w (x + 1)) then (x + 1, (acq w (x + 1)).neg) else (x, (acq w x).neg), prior := (), nRep := 0 },
    nRestarts := 2, props := fun i j => [i + j], predict := fun w _ => w.copy.st.yTrain.getLast?.getD .nan, append := appendLie Shift.exCfg none }

def mapStart : Obj ℚ Unit ℕ ℚ Unit :=
  ⟨(Gpr.run Shift.exCfg (Gpr.State.init () .unfitted (.scalar (1 / 10))) [{ batch := some ([0, 1], [.fin (-2), .fin (-1)]) }]).getD (Gpr.State.init () .unfitted (.scalar 1)), 11 / 10, none⟩

example : (multiAdd mapEng none 3 ⟨mapStart, mapStart.deepcopy⟩).map (fun r => r.2) = .ok [(2, .fin (-1), .fin (-1)), (3, .fin (-1), .fin 0), (3, .fin (-1), .fin (-1))] ∧
    (multiAdd mapEng none 3 ⟨mapObj (Shift.shiftS 7) id mapStart, (mapObj (Shift.shiftS 7) id mapStart).deepcopy⟩).map (fun r => r.2) =
      .ok [(2, .fin 6, .fin (-1)), (3, .fin 6, .fin 0), (3, .fin 6, .fin (-1))] := by
  have h1 : (multiAdd mapEng none 3 ⟨mapStart, mapStart.deepcopy⟩).map (fun r => r.2) = .ok [(2, .fin (-1), .fin (-1)), (3, .fin (-1), .fin 0), (3, .fin (-1), .fin (-1))] := by
    decide +kernel
  refine ⟨h1, ?_⟩
  rw [(C143_batch Shift.exCfg 7 (Shift.exCfg_ok 7) none (fun f h => by cases h) mapEng rfl rfl
    (fun f x _ => if Ext.lt (f x) (f (x + 1)) then (x + 1, (f (x + 1)).neg) else (x, (f x).neg)) rfl (fun w x => rfl) (fun w x => by
      simp only [mapEng, mapPair, mapObj, Shift.shiftS, List.getLast?_map]
      cases w.copy.st.yTrain.getLast? <;> rfl) none 3 mapStart).1]
  cases hm : multiAdd mapEng none 3 ⟨mapStart, mapStart.deepcopy⟩ with
  | error e => rw [hm] at h1; cases h1
  | ok r =>
    rw [hm] at h1
    simp only [Except.map, Except.ok.injEq] at h1 ⊢
    rw [h1]
    norm_num [Shift.shift, Ext.addFin]

end Ex

section ExR
open Copy BatchPre

noncomputable def normCfg (d : ℕ) (Θ : Type) (th : Θ) : Gpr.Cfg (Fin d → ℝ) (Pre.NormBounds d ℝ) Θ ℝ :=
  { useSvm := false, keepMin := 1, thr := .fin 20, eps := 1 / 1000000, fitX := fun B _ _ => B, trX := fun B x i => (x i - B.lo i) / (B.hi i - B.lo i),
    fitY := fun q _ _ => .ok q, nRestarts := 1, canOptimise := false, optimise := fun _ _ _ _ _ => th, cholOk := fun _ _ _ => true }

/-- The sum of the coordinates in units of the prior; a step of a quarter of the prior in all directions. -/
noncomputable def normAcq (d : ℕ) (Θ : Type) (w : Pair (Pt d) (Pre.NormBounds d ℝ) Θ ℝ Unit) (x : Pt d) : Ext ℝ :=
  .fin (∑ i, (x i - w.copy.st.px.lo i) / (w.copy.st.px.hi i - w.copy.st.px.lo i))

noncomputable def stepOpt (d : ℕ) : Opt d := fun f z b => (fun i => min (z i + 1 / 4) (b i).2, f fun i => min (z i + 1 / 4) (b i).2)

/-- A regressor whose training set is one point. -/
noncomputable def oneState (d : ℕ) (Θ : Type) (prior : Box d) (x : Pt d) : Gpr.State (Pt d) (Pre.NormBounds d ℝ) Θ ℝ :=
  { (Gpr.State.init ⟨fun i => (prior i).1, fun i => (prior i).2⟩ .unfitted (.scalar 1)) with xAll := [x], xTrain := [x], yAll := [.fin 0], yTrain := [.fin 0] }

theorem normEng_runs (d : ℕ) (Θ : Type) (th : Θ) (prior : Box d) (x : Pt d) (hx : InBox prior x) (hp : ∀ i, (prior i).1 < (prior i).2)
    (h4 : ∀ i, x i + ((prior i).2 - (prior i).1) / 4 ≤ (prior i).2) :
    (multiAdd (engine prior (stepOpt d) (normAcq d Θ) (normAcq d Θ) 0 1 (fun _ _ => []) (normCfg d Θ th) none) none 1
      ⟨⟨oneState d Θ prior x, 1, none⟩, (⟨oneState d Θ prior x, 1, none⟩ : Obj _ _ _ _ _).deepcopy⟩).map (fun r => r.2.map fun t => t.1) =
      .ok [fun i => x i + ((prior i).2 - (prior i).1) / 4] := by
  have hm : ∀ i, min ((x i - (prior i).1) / ((prior i).2 - (prior i).1) + 4⁻¹) 1 = (x i - (prior i).1) / ((prior i).2 - (prior i).1) + 4⁻¹ := by
    intro i
    have hi := sub_pos.2 (hp i)
    apply min_eq_left
    rw [← sub_nonneg, show 1 - ((x i - (prior i).1) / ((prior i).2 - (prior i).1) + 4⁻¹) = ((prior i).2 - (x i + ((prior i).2 - (prior i).1) / 4)) / ((prior i).2 - (prior i).1) by
      field_simp; ring]
    exact div_nonneg (sub_nonneg.2 (h4 i)) hi.le
  simp [multiAdd, serial, rankLoop, optimise, engine, env, oneState, Obj.deepcopy, hx, loc, stepOpt, choose, pick, argmin, argminGo, List.range_succ, PreX.tr, PreX.trBounds, PreX.inv,
    Stage.tr, Stage.trBounds, Stage.inv, hm, objective, normAcq, Ext.neg, Ext.isFinite, Ext.isNan, Ext.lt, Except.map]
  funext i
  have := (sub_pos.2 (hp i)).ne'
  field_simp
  ring

/-- Kilometres to metres with another zero: from `[0, 4]` to `[5, 4005]`; the batch for the training point 1 is 2, in metres 2005. -/
example : (multiAdd (engine (affB (fun _ => 1000) (fun _ => 5) fun _ : Fin 1 => (0, 4)) (stepOpt 1) (normAcq 1 Unit) (normAcq 1 Unit) 0 1 (fun _ _ => []) (normCfg 1 Unit ()) none)
      none 1 ⟨mapObj (Units.conv (Units.aff (fun _ => 1000) fun _ => 5) (Units.affN (fun _ => 1000) fun _ => 5)) id ⟨oneState 1 Unit (fun _ => (0, 4)) fun _ => 1, 1, none⟩,
        (mapObj (Units.conv (Units.aff (fun _ => 1000) fun _ => 5) (Units.affN (fun _ => 1000) fun _ => 5)) id ⟨oneState 1 Unit (fun _ => (0, 4)) fun _ => 1, 1, none⟩).deepcopy⟩).map
      (fun r => r.2.map fun t => t.1 0) = .ok [2005] := by
  have h := C144_batch (fun _ : Fin 1 => (1000 : ℝ)) (fun _ => 5) (fun _ => by norm_num) (Units.affN (fun _ => 1000) fun _ => 5) (id : Unit → Unit) (normCfg 1 Unit ())
    (Units.C144_preprocessors _ _ _ (fun _ => by norm_num) rfl rfl (fun q _ => .ok q) rfl) none none (.inl ⟨rfl, rfl⟩) (fun _ => (0, 4)) (stepOpt 1) (normAcq 1 Unit) (normAcq 1 Unit)
    (normAcq 1 Unit) (normAcq 1 Unit) (fun w x => by
      simp only [normAcq, mapPair, mapObj, Units.conv, Units.affN, Units.aff]
      congr 1
      refine Finset.sum_congr rfl fun i _ => ?_
      rw [show (1000 : ℝ) * x i + 5 - (1000 * w.copy.st.px.lo i + 5) = 1000 * (x i - w.copy.st.px.lo i) by ring,
        show (1000 : ℝ) * w.copy.st.px.hi i + 5 - (1000 * w.copy.st.px.lo i + 5) = 1000 * (w.copy.st.px.hi i - w.copy.st.px.lo i) by ring,
        mul_div_mul_left _ _ (by norm_num)])
    (fun w x => by
      simp only [normAcq, mapPair, mapObj, Units.conv, Units.affN, Units.aff]
      congr 1
      refine Finset.sum_congr rfl fun i _ => ?_
      rw [show (1000 : ℝ) * x i + 5 - (1000 * w.copy.st.px.lo i + 5) = 1000 * (x i - w.copy.st.px.lo i) by ring,
        show (1000 : ℝ) * w.copy.st.px.hi i + 5 - (1000 * w.copy.st.px.lo i + 5) = 1000 * (w.copy.st.px.hi i - w.copy.st.px.lo i) by ring,
        mul_div_mul_left _ _ (by norm_num)]) 0 1 (fun _ _ => []) none 1 ⟨oneState 1 Unit (fun _ => (0, 4)) fun _ => 1, 1, none⟩
  rw [Option.map_none] at h
  simp only [List.map_nil] at h
  rw [h]
  have h0 := normEng_runs 1 Unit () (fun _ => (0, 4)) (fun _ => 1) (fun _ => by norm_num) (fun _ => by norm_num) (fun _ => by norm_num)
  revert h0
  rcases multiAdd (engine (fun _ : Fin 1 => ((0 : ℝ), (4 : ℝ))) (stepOpt 1) (normAcq 1 Unit) (normAcq 1 Unit) 0 1 (fun _ _ => []) (normCfg 1 Unit ()) none) none 1
    ⟨⟨oneState 1 Unit (fun _ => (0, 4)) fun _ => 1, 1, none⟩, (⟨oneState 1 Unit (fun _ => (0, 4)) fun _ => 1, 1, none⟩ : Obj _ _ _ _ _).deepcopy⟩ with e | r
  · intro h0; cases h0
  · intro h0
    simp only [Except.map, Except.ok.injEq] at h0 ⊢
    rw [List.map_map]
    have : (r.2.map fun t => t.1).map (fun x : Pt 1 => (1000 : ℝ) * x 0 + 5) = [2005] := by rw [h0]; norm_num
    rw [← this, List.map_map]
    rfl

/-- Two parameters exchanged: from `[0, 4] × [0, 40]` and the training point (1, 20) to (2, 30). -/
example : (multiAdd (engine (Order.re Order.sw ![(0, 4), (0, 40)]) (stepOpt 2) (normAcq 2 Unit) (normAcq 2 Unit) 0 1 (fun _ _ => []) (normCfg 2 Unit ()) none)
      none 1 ⟨mapObj (Order.conv (Order.re Order.sw) (Order.reN Order.sw) id) id ⟨oneState 2 Unit ![(0, 4), (0, 40)] ![1, 20], 1, none⟩,
        (mapObj (Order.conv (Order.re Order.sw) (Order.reN Order.sw) id) id ⟨oneState 2 Unit ![(0, 4), (0, 40)] ![1, 20], 1, none⟩).deepcopy⟩).map
      (fun r => r.2.map fun t => (t.1 0, t.1 1)) = .ok [(30, 2)] := by
  have hs : ∀ f : Fin 2 → ℝ, ∑ i, f (Order.sw i) = ∑ i, f i := fun f => Equiv.sum_comp Order.sw f
  have h := C150_batch Order.sw (Order.reN Order.sw) (id : Unit → Unit) (id : Unit → Unit) (normCfg 2 Unit ())
    ⟨fun _ _ _ => rfl, fun _ _ => rfl, fun _ _ _ => rfl, fun _ _ _ => rfl, fun _ _ _ _ _ => rfl⟩ none none (.inl ⟨rfl, rfl⟩) ![(0, 4), (0, 40)] (stepOpt 2) (stepOpt 2)
    (fun f x box => by
      simp only [stepOpt, Prod.mk.injEq]
      refine ⟨rfl, congrArg f (funext fun i => ?_)⟩
      simp [Order.re]) (normAcq 2 Unit) (normAcq 2 Unit) (normAcq 2 Unit) (normAcq 2 Unit)
    (fun w x => congrArg Ext.fin (hs fun i => (x i - w.copy.st.px.lo i) / (w.copy.st.px.hi i - w.copy.st.px.lo i)))
    (fun w x => congrArg Ext.fin (hs fun i => (x i - w.copy.st.px.lo i) / (w.copy.st.px.hi i - w.copy.st.px.lo i)))
    0 1 (fun _ _ => []) none 1 ⟨oneState 2 Unit ![(0, 4), (0, 40)] ![1, 20], 1, none⟩
  rw [Option.map_none] at h
  simp only [List.map_nil] at h
  rw [h]
  have h0 := normEng_runs 2 Unit () ![(0, 4), (0, 40)] ![1, 20] (fun i => by fin_cases i <;> norm_num) (fun i => by fin_cases i <;> norm_num) (fun i => by fin_cases i <;> norm_num)
  revert h0
  rcases multiAdd (engine ![((0 : ℝ), (4 : ℝ)), (0, 40)] (stepOpt 2) (normAcq 2 Unit) (normAcq 2 Unit) 0 1 (fun _ _ => []) (normCfg 2 Unit ()) none) none 1
    ⟨⟨oneState 2 Unit ![(0, 4), (0, 40)] ![1, 20], 1, none⟩, (⟨oneState 2 Unit ![(0, 4), (0, 40)] ![1, 20], 1, none⟩ : Obj _ _ _ _ _).deepcopy⟩ with e | r
  · intro h0; cases h0
  · intro h0
    simp only [Except.map, Except.ok.injEq] at h0 ⊢
    rw [List.map_map]
    have : (r.2.map fun t => t.1).map (fun x : Pt 2 => (x 1, x 0)) = [(30, 2)] := by rw [h0]; norm_num
    rw [← this, List.map_map]
    rfl

end ExR

end GPry.Batch
