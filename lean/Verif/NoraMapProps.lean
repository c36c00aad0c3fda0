import Verif.NoraMap
import Verif.PoolGpProps
import Verif.ShiftPredProps
import Verif.UnitsProps
import Verif.OrderProps

set_option linter.all false

/-!
# Shifts, units and orders of parameters in NORA (C143, C144, C150)

`NoraMap` takes two calls of `multi_add` whose components correspond to each other. Here the components are those of the Gaussian process: its
predictions, the acquisition function, and the one conditioned to the points of the pool.
-/

namespace GPry.PoolGp

open GPry Acq AcqPts Predict Proposed Gp NoraSpmd Nora Ranked Spmd Matrix

variable {d : ℕ}

/-- The surrogate for the points changed by `u` and the log-posterior with `c` added: the kernel of transformed points is the same, the
preprocessor of the targets has been fitted to the new ones, and the classifier and the trust region are those of the changed points. -/
structure SameSurr (u : (Fin d → ℝ) → Fin d → ℝ) (c : ℝ) (g g' : Surr d) : Prop where
  k : ∀ x y, g'.M.k (g'.M.trX (u x)) (g'.M.trX (u y)) = g.M.k (g.M.trX x) (g.M.trX y)
  mu : g'.M.mu = g.M.mu + c
  s : g'.M.s = g.M.s
  chol : g'.chol = g.chol
  noise : g'.noise = g.noise
  clip : g'.clip = g.clip
  all : g'.all = g.all.map (Prod.map u (Shift.shift c))
  clf : (g.clf = none ∧ g'.clf = none) ∨
    ∃ S S' T, g.clf = some (S, T) ∧ g'.clf = some (S', T) ∧ ∀ x, S'.predict [g'.M.trX (u x)] = S.predict [g.M.trX x]
  trust : (g.trust = none ∧ g'.trust = none) ∨ ∃ b b', g.trust = some b ∧ g'.trust = some b' ∧ ∀ x, outside b' (u x) = outside b x

section
variable {u : (Fin d → ℝ) → Fin d → ℝ} {c : ℝ} {g g' : Surr d}

theorem isFin_same (h : SameSurr u c g g') (ys : List (Ext ℝ)) (y : Ext ℝ) : g'.isFin (ys.map (Shift.shift c)) (Shift.shift c y) = g.isFin ys y := by
  unfold Surr.isFin
  rcases h.clf with ⟨h1, h2⟩ | ⟨S, S', T, h1, h2, -⟩
  · rw [h1, h2]
  · rw [h1, h2]
    dsimp only
    rw [Shift.npMax_shift]
    cases Ext.npMax ys with
    | none => exact Shift.isFiniteRaw_shift c T .nan y
    | some m => exact Shift.isFiniteRaw_shift c T m y

theorem train_same (h : SameSurr u c g g') (lies : List ((Fin d → ℝ) × Ext ℝ)) :
    g'.train (lies.map (Prod.map u (Shift.shift c))) = (g.train lies).map (Prod.map u (Shift.shift c)) := by
  have hm : ∀ l : List ((Fin d → ℝ) × Ext ℝ), (l.map (Prod.map u (Shift.shift c))).map Prod.snd = (l.map Prod.snd).map (Shift.shift c) := by
    intro l; simp [Function.comp_def]
  have hf : ∀ (ys : List (Ext ℝ)) (l : List ((Fin d → ℝ) × Ext ℝ)),
      (l.map (Prod.map u (Shift.shift c))).filter (fun q => g'.isFin (ys.map (Shift.shift c)) q.2) =
        (l.filter fun q => g.isFin ys q.2).map (Prod.map u (Shift.shift c)) := by
    intro ys l
    rw [List.filter_map]
    congr 1
    exact List.filter_congr fun q _ => isFin_same h ys q.2
  unfold Surr.train
  rw [h.all, ← List.map_append, hm, hm, hf, hf, List.any_map]
  have : (fun q : (Fin d → ℝ) × Ext ℝ => g'.isFin (((g.all ++ lies).map Prod.snd).map (Shift.shift c)) q.2) ∘ Prod.map u (Shift.shift c) =
      fun q => g.isFin ((g.all ++ lies).map Prod.snd) q.2 := funext fun q => isFin_same h _ q.2
  rw [this]
  split <;> rfl

theorem kmat_same {n : ℕ} (h : SameSurr u c g g') (R R' : Raw (Fin n) (Fin d → ℝ)) (hX : ∀ i, R'.X i = u (R.X i)) (hn : ∀ i, R'.noise i = R.noise i) :
    (g'.M.data R').kmat g'.M.k = (g.M.data R).kmat g.M.k := by
  unfold Data.kmat Model.data
  simp only [hX, hn, h.k, h.s]

theorem kTrans_same {n : ℕ} (h : SameSurr u c g g') (R R' : Raw (Fin n) (Fin d → ℝ)) (hX : ∀ i, R'.X i = u (R.X i)) (x : Fin d → ℝ) :
    (g'.M.data R').kTrans g'.M.k (g'.M.trX (u x)) = (g.M.data R).kTrans g.M.k (g.M.trX x) := by
  unfold Data.kTrans Model.data
  simp only [hX, h.k]

theorem std_same {n : ℕ} (h : SameSurr u c g g') (chol : Matrix (Fin n) (Fin n) ℝ → Matrix (Fin n) (Fin n) ℝ) (R R' : Raw (Fin n) (Fin d → ℝ))
    (hX : ∀ i, R'.X i = u (R.X i)) (hn : ∀ i, R'.noise i = R.noise i) (x : Fin d → ℝ) : g'.M.std chol R' (u x) = g.M.std chol R x := by
  unfold Model.std Data.std Data.rawVar Data.update kernelInverse
  rw [kmat_same h R R' hX hn, kTrans_same h R R' hX, h.k, h.s]

theorem mean_same {n : ℕ} (h : SameSurr u c g g') (chol : Matrix (Fin n) (Fin n) ℝ → Matrix (Fin n) (Fin n) ℝ) (R R' : Raw (Fin n) (Fin d → ℝ))
    (hX : ∀ i, R'.X i = u (R.X i)) (hn : ∀ i, R'.noise i = R.noise i) (hy : ∀ i, R'.y i = R.y i + c) (x : Fin d → ℝ) :
    g'.M.mean chol R' (u x) = g.M.mean chol R x + c := by
  have hd : (g'.M.data R').y = (g.M.data R).y := by
    unfold Model.data
    simp only [hy, h.mu, h.s, add_sub_add_right_eq_sub]
  unfold Model.mean Data.mean Data.update
  rw [kmat_same h R R' hX hn, kTrans_same h R R' hX, hd, h.s, h.mu]
  ring

theorem svm_same (h : SameSurr u c g g') : (g.clf.map Prod.fst = none ∧ g'.clf.map Prod.fst = none) ∨
    ∃ S S' : Svm (Fin d → ℝ), g.clf.map Prod.fst = some S ∧ g'.clf.map Prod.fst = some S' ∧ ∀ x, S'.predict [g'.M.trX (u x)] = S.predict [g.M.trX x] := by
  rcases h.clf with ⟨h1, h2⟩ | ⟨S, S', T, h1, h2, h3⟩
  · exact .inl ⟨by rw [h1]; rfl, by rw [h2]; rfl⟩
  · exact .inr ⟨S, S', by rw [h1]; rfl, by rw [h2]; rfl, h3⟩

/-- A surrogate with a given training set. -/
noncomputable def stOn (g : Surr d) (n : ℕ) (R : Raw (Fin n) (Fin d → ℝ)) : St d n :=
  { fitted := true, prior := g.prior, M := g.M, chol := g.chol _, R := R, svm := g.clf.map Prod.fst, trust := g.trust, clip := g.clip, minf := .negInf }

theorem stOn_std (h : SameSurr u c g g') {n n' : ℕ} (e : n' = n) (R : Raw (Fin n) (Fin d → ℝ)) (R' : Raw (Fin n') (Fin d → ℝ))
    (hX : ∀ i, R'.X i = u (R.X (Fin.cast e i))) (hn : ∀ i, R'.noise i = R.noise (Fin.cast e i)) (x : Fin d → ℝ) :
    (stOn g' n' R').predictStd [u x] = (stOn g n R).predictStd [x] := by
  subst e
  have hs := std_same h (g.chol n') R R' hX hn x
  unfold St.predictStd stOn
  dsimp only
  rcases svm_same h with ⟨h1, h2⟩ | ⟨S, S', h1, h2, h3⟩
  · rw [h1, h2, h.chol]
    simp [hs]
  · rw [h1, h2, h.chol]
    simp only [Bool.not_true, Bool.false_eq_true, if_false, List.map_cons, List.map_nil, h3]
    cases hp : S.predict [g.M.trX x] with
    | error e => rfl
    | ok fin =>
      have hl := Shift.svm_length S _ fin hp
      match fin, hl with
      | [true], _ => simp [maskGet, scatter, hs]
      | [false], _ => simp

theorem stOn_predict (h : SameSurr u c g g') {n n' : ℕ} (e : n' = n) (R : Raw (Fin n) (Fin d → ℝ)) (R' : Raw (Fin n') (Fin d → ℝ))
    (hX : ∀ i, R'.X i = u (R.X (Fin.cast e i))) (hn : ∀ i, R'.noise i = R.noise (Fin.cast e i)) (hy : ∀ i, R'.y i = R.y (Fin.cast e i) + c) (x : Fin d → ℝ) :
    (stOn g' n' R').predict [u x] false = ((stOn g n R).predict [x] false).map fun r => (r.1.map (Shift.shift c), r.2) := by
  subst e
  have hs := std_same h (g.chol n') R R' hX hn x
  have hm := mean_same h (g.chol n') R R' hX hn hy x
  have hmeans : (stOn g' n' R').means [u x] = ((stOn g n' R).means [x]).map (List.map (· + c)) := by
    have e2 : List.ofFn R'.y = (List.ofFn R.y).map (· + c) := by
      rw [List.map_ofFn]; congr 1; funext i; exact hy i
    unfold St.means stOn
    dsimp only
    rw [h.chol, h.clip, e2]
    cases g.clip with
    | none => simp [hm, Except.map]
    | some f =>
      dsimp only
      rw [Shift.ceiling_shift]
      cases ceiling f (List.ofFn R.y) with
      | error e => rfl
      | ok t => simp [Except.map, hm, min_add_add_right]
  have htrust : ∀ m : Ext ℝ, (stOn g' n' R').trustMask [u x] false [Shift.shift c m] = ((stOn g n' R).trustMask [x] false [m]).map (Shift.shift c) := by
    intro m
    unfold St.trustMask stOn
    dsimp only
    rcases h.trust with ⟨h1, h2⟩ | ⟨b, b', h1, h2, h3⟩
    · rw [h1, h2]; rfl
    · rw [h1, h2]
      simp only [Bool.false_eq_true, if_false, List.map_cons, List.map_nil, maskSet, h3]
      cases outside b x <;> rfl
  have hstd : ∀ y : ℝ, [Ext.fin (y + c)] = [Shift.shift c (.fin y)] := fun y => rfl
  have hml : ∀ y, (stOn g n' R).means [x] = .ok y → ∃ v, y = [v] := by
    intro y hy'
    have := Shift.means_length _ _ _ hy'
    match y, this with
    | [v], _ => exact ⟨v, rfl⟩
  unfold St.predict
  rw [show (stOn g n' R).fitted = true from rfl, show (stOn g' n' R').fitted = true from rfl, show (stOn g n' R).svm = g.clf.map Prod.fst from rfl,
    show (stOn g' n' R').svm = g'.clf.map Prod.fst from rfl]
  simp only [Bool.not_true, Bool.false_eq_true, if_false]
  have hstd' : (stOn g' n' R').M.std (stOn g' n' R').chol (stOn g' n' R').R (u x) = (stOn g n' R).M.std (stOn g n' R).chol (stOn g n' R).R x := by
    show g'.M.std (g'.chol n') R' (u x) = _
    rw [h.chol]
    exact hs
  rcases svm_same h with ⟨h1, h2⟩ | ⟨S, S', h1, h2, h3⟩
  · rw [h1, h2]
    dsimp only
    rw [hmeans]
    cases hM : (stOn g n' R).means [x] with
    | error e => rfl
    | ok y =>
      obtain ⟨v, rfl⟩ := hml y hM
      simp only [Except.map, List.map_cons, List.map_nil, hstd', hstd, htrust]
  · rw [h1, h2]
    simp only [List.map_cons, List.map_nil]
    rw [show (stOn g' n' R').M.trX (u x) = g'.M.trX (u x) from rfl, show (stOn g n' R).M.trX x = g.M.trX x from rfl, h3]
    cases hp : S.predict [g.M.trX x] with
    | error e => rfl
    | ok fin =>
      have hl := Shift.svm_length S _ fin hp
      match fin, hl with
      | [true], _ =>
        simp only [List.all_cons, List.all_nil, Bool.not_true, Bool.false_and, Bool.false_eq_true, if_false, maskGet, hmeans]
        cases hM : (stOn g n' R).means [x] with
        | error e => rfl
        | ok y =>
          obtain ⟨v, rfl⟩ := hml y hM
          simp only [Except.map, List.map_cons, List.map_nil, hstd', scatter, maskSet, hstd, htrust]
      | [false], _ => simp [Except.map, stOn]

theorem st_eq (g : Surr d) (lies : List ((Fin d → ℝ) × Ext ℝ)) : g.st lies = stOn g _ (rawOf g.noise (g.train lies)) := rfl

/-- `predict_std` with lies. -/
theorem predictStd_same (h : SameSurr u c g g') (lies : List ((Fin d → ℝ) × Ext ℝ)) (x : Fin d → ℝ) :
    (g'.st (lies.map (Prod.map u (Shift.shift c)))).predictStd [u x] = (g.st lies).predictStd [x] := by
  rw [st_eq, st_eq]
  refine stOn_std h (by rw [train_same h, List.length_map]) _ _ (fun i => ?_) (fun i => h.noise) x
  simp [rawOf, train_same h]

/-- `predict` without lies, if the values of the training set are numbers. -/
theorem predict_same (h : SameSurr u c g g') (hfin : ∀ q ∈ g.train [], q.2.isFinite = true) (x : Fin d → ℝ) :
    (g'.st []).predict [u x] false = ((g.st []).predict [x] false).map fun r => (r.1.map (Shift.shift c), r.2) := by
  have ht : g'.train [] = (g.train []).map (Prod.map u (Shift.shift c)) := train_same h []
  have hlen : (g'.train []).length = (g.train []).length := by rw [ht, List.length_map]
  rw [st_eq, st_eq]
  refine stOn_predict h (by rw [ht, List.length_map]) _ _ (fun i => ?_) (fun i => h.noise) (fun i => ?_) x
  · simp [rawOf, ht]
  · simp only [rawOf, ht, List.get_eq_getElem, List.getElem_map, Prod.map_snd, Fin.val_cast]
    have := hfin _ (List.getElem_mem (l := g.train []) (n := i.val) (by have := i.2; omega))
    revert this
    cases ((g.train [])[i.val]'(by have := i.2; omega)).2 <;> simp [Ext.isFinite, num, Shift.shift, Ext.addFin]

/-- The acquisition function of a mean and a standard deviation. -/
theorem f_same (k : Proposed.Kind) (zeta noise base c : ℝ) (y : Ext ℝ) (s : ℝ) : k.f zeta noise (base + c) (Shift.shift c y) s = k.f zeta noise base y s := by
  unfold Proposed.Kind.f
  rw [Shift.subFin_shift]

theorem cond_same (h : SameSurr u c g g') {φ : List ℝ → List ℝ} (hφ : ∀ x, pt d (φ x) = u (pt d x)) (k : Proposed.Kind) (zeta baseline : ℝ)
    (lies : List (List ℝ × Ext ℝ)) (x : List ℝ) (y : Ext ℝ) :
    g'.cond k zeta (baseline + c) (lies.map (Prod.map φ (Shift.shift c))) (φ x) (Shift.shift c y) = g.cond k zeta baseline lies x y := by
  have hl : (lies.map (Prod.map φ (Shift.shift c))).map (fun q => (pt d q.1, q.2)) = (lies.map fun q => (pt d q.1, q.2)).map (Prod.map u (Shift.shift c)) := by
    rw [List.map_map, List.map_map]
    exact List.map_congr_left fun q _ => by simp [hφ]
  unfold Surr.cond
  rw [hl, hφ, predictStd_same h, h.noise]
  generalize (g.st (lies.map fun q => (pt d q.1, q.2))).predictStd [pt d x] = r
  match r, y with
  | .ok [s], .fin m => exact congrArg toV (f_same k zeta g.noise baseline c (.fin m) s)
  | .ok [s], .negInf => exact congrArg toV (f_same k zeta g.noise baseline c .negInf s)
  | .ok [s], .posInf => rfl
  | .ok [s], .nan => rfl
  | .ok [], y => cases y <;> rfl
  | .ok (a :: b :: l), y => cases y <;> rfl
  | .error e, y => cases y <;> rfl

/-- What two calls of `multi_add` use: the surrogates `g` and `g'`, an acquisition function relative to their best values, and otherwise the same. -/
structure Uses (φ : List ℝ → List ℝ) (c : ℝ) (k : Proposed.Kind) (zeta baseline : ℝ) (g g' : Surr d) (q q' : Par ℝ EReal) : Prop where
  pred : ∀ x, (g.st []).predict [pt d x] false = .ok ([(q.pred x).1], [(q.pred x).2])
  pred' : ∀ x, (g'.st []).predict [pt d x] false = .ok ([(q'.pred x).1], [(q'.pred x).2])
  acq : ∀ mu std, q.acq mu std = toV (k.f zeta g.noise baseline mu std)
  acq' : ∀ mu std, q'.acq mu std = toV (k.f zeta g'.noise (baseline + c) mu std)
  cond : q.cfg.cond = g.cond k zeta baseline
  cond' : q'.cfg.cond = g'.cond k zeta (baseline + c)
  n : q'.n = q.n
  m : q'.m = q.m
  force : q'.force = q.force
  inB : (q.inB = none ∧ q'.inB = none) ∨ ∃ b b', q.inB = some b ∧ q'.inB = some b' ∧ ∀ x, b' (φ x) = b x
  argsort : q'.cfg.argsortDesc = q.cfg.argsortDesc
  perm : ∀ l, (q.cfg.argsortDesc l).Perm (List.range l.length)
  order : ∀ l, q'.order (l.map (changeCand φ (Shift.shift c) id)) = (q.order l).map (changeCand φ (Shift.shift c) id)
  a0 : q'.a0 = q.a0

theorem Uses.follows {φ : List ℝ → List ℝ} {k : Proposed.Kind} {zeta baseline : ℝ} {q q' : Par ℝ EReal} (hu : Uses φ c k zeta baseline g g' q q')
    (h : SameSurr u c g g') (hφ : ∀ x, pt d (φ x) = u (pt d x)) (hfin : ∀ q ∈ g.train [], q.2.isFinite = true) : Follows φ (Shift.shift c) q q' where
  n := hu.n
  m := hu.m
  force := hu.force
  pred x := by
    have h1 := hu.pred' (φ x)
    rw [hφ, predict_same h hfin, hu.pred x] at h1
    simp only [Except.map, List.map_cons, List.map_nil, Except.ok.injEq, Prod.mk.injEq, List.cons.injEq, and_true] at h1
    exact Prod.ext h1.1.symm h1.2.symm
  inB := hu.inB
  acq y s := by rw [hu.acq', hu.acq, h.noise, f_same]
  cond pre x y := by rw [hu.cond, hu.cond', cond_same h hφ]
  argsort := hu.argsort
  perm := hu.perm
  order := hu.order
  a0 := hu.a0
  sub := Shift.sub_shift c

end

/-! ## The theorems -/

/-- The surrogate with `c` added to the log-posterior. -/
noncomputable def shiftS (c : ℝ) (g : Surr d) : Surr d :=
  { g with M := { g.M with mu := g.M.mu + c }, all := g.all.map fun q => (q.1, Shift.shift c q.2) }

theorem shiftS_same (c : ℝ) (g : Surr d) : SameSurr id c g (shiftS c g) where
  k _ _ := rfl
  mu := rfl
  s := rfl
  chol := rfl
  noise := rfl
  clip := rfl
  all := rfl
  clf := by
    cases h : g.clf with
    | none => exact .inl ⟨rfl, h⟩
    | some q => exact .inr ⟨q.1, q.1, q.2, rfl, h, fun _ => rfl⟩
  trust := by
    cases h : g.trust with
    | none => exact .inl ⟨rfl, h⟩
    | some b => exact .inr ⟨b, b, rfl, h, fun _ => rfl⟩

theorem shift_zero : Shift.shift (0 : ℝ) = id := by
  funext y
  cases y <;> simp [Shift.shift, Ext.addFin]

/-- **C143** for NORA, gp_acquisition.py:978-1137, whatever the number of processes: with a constant added to the log-posterior, `multi_add` proposes the
same points, predicted with the constant added, and has the same attributes otherwise -- the weights of a sample that is used again included --, or
in both cases a process raises. The sampler is taken to draw the same sample. -/
theorem C143_nora {p : ℕ} (hp : 0 < p) (c : ℝ) (k : Proposed.Kind) (zeta baseline : ℝ) (g : Surr d) (hfin : ∀ q ∈ g.train [], q.2.isFinite = true)
    (q q' : Par ℝ EReal) (hu : Uses id c k zeta baseline g (shiftS c g) q q')
    (draw : Fin p → Prog AErr (Option (List (List ℝ) × Option (List ℝ)))) (D : List (List ℝ) × Option (List ℝ))
    (hd : Runs draw fun r => .ok (if r.val = 0 then some D else none)) (s : Fin p → PState ℝ) (i : ℕ) (hi : ∀ r, (s r).i = i) :
    (∃ (s2 : Fin p → PState ℝ) (out : List (List ℝ)) (ys : List (Ext ℝ)), Runs (fun r : Fin p => multiAdd p r q (draw r) (s r)) (fun r => .ok (s2 r, out, ys)) ∧
      Runs (fun r : Fin p => multiAdd p r q' (draw r) (mapP id (Shift.shift c) (s r))) fun r => .ok (mapP id (Shift.shift c) (s2 r), out, ys.map (Shift.shift c))) ∨
    (Fails (fun r : Fin p => multiAdd p r q (draw r) (s r)) ∧ Fails (fun r : Fin p => multiAdd p r q' (draw r) (mapP id (Shift.shift c) (s r)))) := by
  have h := multiAdd_follows hp (hu.follows (shiftS_same c g) (fun _ => rfl) hfin) draw draw D hd (by simpa [mapDraw] using hd) s i hi (fun _ _ _ _ _ _ _ => rfl)
  simpa only [List.map_id] using h

/-- The surrogate in other units, with a preprocessor of the points that has been fitted to the new bounds. -/
noncomputable def unitS (a b : Fin d → ℝ) (tr : (Fin d → ℝ) → Fin d → ℝ) (g : Surr d) : Surr d :=
  { g with M := { g.M with trX := tr }, all := g.all.map fun q => (Units.aff a b q.1, q.2), trust := g.trust.map (Units.affB a b) }

theorem unitS_same (a b : Fin d → ℝ) (ha : ∀ i, 0 < a i) (tr : (Fin d → ℝ) → Fin d → ℝ) (g : Surr d) (ht : ∀ x, tr (Units.aff a b x) = g.M.trX x) :
    SameSurr (Units.aff a b) 0 g (unitS a b tr g) where
  k x y := by simp [unitS, ht]
  mu := by simp [unitS]
  s := rfl
  chol := rfl
  noise := rfl
  clip := rfl
  all := by rw [shift_zero]; rfl
  clf := by
    cases h : g.clf with
    | none => exact .inl ⟨rfl, h⟩
    | some q => exact .inr ⟨q.1, q.1, q.2, rfl, h, fun x => by simp [unitS, ht]⟩
  trust := by
    cases h : g.trust with
    | none => exact .inl ⟨rfl, by simp [unitS, h]⟩
    | some B => exact .inr ⟨B, Units.affB a b B, rfl, by simp [unitS, h], Units.outside_aff a b ha B⟩

/-- A row of the sample in other units. -/
noncomputable def unitRow (a b : Fin d → ℝ) (x : List ℝ) : List ℝ := List.ofFn (Units.aff a b (pt d x))

theorem pt_ofFn (f : Fin d → ℝ) : pt d (List.ofFn f) = f := by
  funext j
  simp [pt]

/-- **C144** for NORA, whatever the number of processes: in other units `multi_add` proposes the same points in the new units, with the same predictions,
or in both cases a process raises. Missing: for a sample that is used again this needs that the coordinates of no point of it, in either units, are all
among those of another point that has been proposed (C144_nora_counterexample). The sampler is taken to draw the same sample in the new units. -/
theorem C144_nora_partial {p : ℕ} (hp : 0 < p) (a b : Fin d → ℝ) (ha : ∀ i, 0 < a i) (tr : (Fin d → ℝ) → Fin d → ℝ) (k : Proposed.Kind) (zeta baseline : ℝ)
    (g : Surr d) (ht : ∀ x, tr (Units.aff a b x) = g.M.trX x) (hfin : ∀ q ∈ g.train [], q.2.isFinite = true)
    (q q' : Par ℝ EReal) (hu : Uses (unitRow a b) 0 k zeta baseline g (unitS a b tr g) q q')
    (draw draw' : Fin p → Prog AErr (Option (List (List ℝ) × Option (List ℝ)))) (D : List (List ℝ) × Option (List ℝ))
    (hd : Runs draw fun r => .ok (if r.val = 0 then some D else none))
    (hd' : Runs draw' fun r => .ok (if r.val = 0 then some (D.1.map (unitRow a b), D.2) else none)) (s : Fin p → PState ℝ) (i : ℕ) (hi : ∀ r, (s r).i = i)
    (hrec : sampleNow q.m i q.force = false → ∀ o, (s ⟨0, hp⟩).mc.orig = some o → ∀ r ∈ o.X, ∀ x ∈ (s ⟨0, hp⟩).proposed,
      ((∀ v ∈ r, v ∈ x) → r = x) ∧ ((∀ v ∈ unitRow a b r, v ∈ unitRow a b x) → r = x)) :
    (∃ (s2 : Fin p → PState ℝ) (out : List (List ℝ)) (ys : List (Ext ℝ)), Runs (fun r : Fin p => multiAdd p r q (draw r) (s r)) (fun r => .ok (s2 r, out, ys)) ∧
      Runs (fun r : Fin p => multiAdd p r q' (draw' r) (mapP (unitRow a b) id (s r))) fun r => .ok (mapP (unitRow a b) id (s2 r), out.map (unitRow a b), ys)) ∨
    (Fails (fun r : Fin p => multiAdd p r q (draw r) (s r)) ∧ Fails (fun r : Fin p => multiAdd p r q' (draw' r) (mapP (unitRow a b) id (s r)))) := by
  have h := multiAdd_follows hp (hu.follows (unitS_same a b ha tr g ht) (fun x => pt_ofFn _) hfin) draw draw' D hd hd' s i hi (by
    intro hnew o ho r hr x hx
    obtain ⟨h1, h2⟩ := hrec hnew o ho r hr x hx
    by_cases e : r = x
    · subst e
      have hrefl : ∀ l : List ℝ, isinRow l l = true := fun l => by
        unfold isinRow
        exact List.all_eq_true.2 fun v hv => decide_eq_true hv
      rw [hrefl, hrefl]
    · have e1 : isinRow r x = false := by
        rw [Bool.eq_false_iff]
        intro hc
        exact e (h1 (by simpa [isinRow] using hc))
      have e2 : isinRow (unitRow a b r) (unitRow a b x) = false := by
        rw [Bool.eq_false_iff]
        intro hc
        refine e (h2 fun v hv => ?_)
        unfold isinRow at hc
        exact of_decide_eq_true (List.all_eq_true.1 hc v hv)
      rw [e1, e2])
  simpa only [shift_zero, List.map_id] using h

/-- The surrogate with its parameters in another order. -/
def orderS (σ : Equiv.Perm (Fin d)) (g : Surr d) : Surr d :=
  { g with
    M := { g.M with k := fun x y => g.M.k (Order.re σ.symm x) (Order.re σ.symm y), trX := fun x => Order.re σ (g.M.trX (Order.re σ.symm x)) }
    all := g.all.map fun q => (Order.re σ q.1, q.2)
    clf := g.clf.map fun q => ({ q.1 with decide := fun x => q.1.decide (Order.re σ.symm x) }, q.2)
    trust := g.trust.map (Order.re σ) }

theorem orderS_same (σ : Equiv.Perm (Fin d)) (g : Surr d) : SameSurr (Order.re σ) 0 g (orderS σ g) where
  k x y := by simp [orderS, Order.re_symm]
  mu := by simp [orderS]
  s := rfl
  chol := rfl
  noise := rfl
  clip := rfl
  all := by rw [shift_zero]; rfl
  clf := by
    cases h : g.clf with
    | none => exact .inl ⟨rfl, by simp [orderS, h]⟩
    | some q =>
      refine .inr ⟨q.1, { q.1 with decide := fun x => q.1.decide (Order.re σ.symm x) }, q.2, rfl, by simp [orderS, h], fun x => ?_⟩
      simp [orderS, Svm.predict, Order.re_symm]
  trust := by
    cases h : g.trust with
    | none => exact .inl ⟨rfl, by simp [orderS, h]⟩
    | some B => exact .inr ⟨B, Order.re σ B, rfl, by simp [orderS, h], Order.outside_re σ B⟩

/-- A row of the sample in another order. -/
def orderRow (σ : Equiv.Perm (Fin d)) (x : List ℝ) : List ℝ := List.ofFn (Order.re σ (pt d x))

theorem mem_orderRow (σ : Equiv.Perm (Fin d)) {x : List ℝ} (hx : x.length = d) (v : ℝ) : v ∈ orderRow σ x ↔ v ∈ x := by
  subst hx
  have : ∀ i : Fin x.length, pt x.length x i = x[i] := fun i => by simp [pt]
  rw [orderRow, List.mem_ofFn, List.mem_iff_getElem]
  constructor
  · rintro ⟨i, hi⟩
    exact ⟨σ i, (σ i).2, by rw [← hi]; exact (this (σ i)).symm⟩
  · rintro ⟨j, hj, hv⟩
    exact ⟨σ.symm ⟨j, hj⟩, by simp [Order.re, this, hv]⟩

/-- **C150** for NORA, whatever the number of processes: with the parameters in another order `multi_add` proposes the same points in that order, with the
same predictions -- points already proposed are told apart as before --, or in both cases a process raises. The sampler is taken to draw the same sample
in the other order. -/
theorem C150_nora {p : ℕ} (hp : 0 < p) (σ : Equiv.Perm (Fin d)) (k : Proposed.Kind) (zeta baseline : ℝ)
    (g : Surr d) (hfin : ∀ q ∈ g.train [], q.2.isFinite = true)
    (q q' : Par ℝ EReal) (hu : Uses (orderRow σ) 0 k zeta baseline g (orderS σ g) q q')
    (draw draw' : Fin p → Prog AErr (Option (List (List ℝ) × Option (List ℝ)))) (D : List (List ℝ) × Option (List ℝ))
    (hd : Runs draw fun r => .ok (if r.val = 0 then some D else none))
    (hd' : Runs draw' fun r => .ok (if r.val = 0 then some (D.1.map (orderRow σ), D.2) else none)) (s : Fin p → PState ℝ) (i : ℕ) (hi : ∀ r, (s r).i = i)
    (hdim : ∀ o, (s ⟨0, hp⟩).mc.orig = some o → (∀ r ∈ o.X, r.length = d) ∧ ∀ x ∈ (s ⟨0, hp⟩).proposed, x.length = d) :
    (∃ (s2 : Fin p → PState ℝ) (out : List (List ℝ)) (ys : List (Ext ℝ)), Runs (fun r : Fin p => multiAdd p r q (draw r) (s r)) (fun r => .ok (s2 r, out, ys)) ∧
      Runs (fun r : Fin p => multiAdd p r q' (draw' r) (mapP (orderRow σ) id (s r))) fun r => .ok (mapP (orderRow σ) id (s2 r), out.map (orderRow σ), ys)) ∨
    (Fails (fun r : Fin p => multiAdd p r q (draw r) (s r)) ∧ Fails (fun r : Fin p => multiAdd p r q' (draw' r) (mapP (orderRow σ) id (s r)))) := by
  have h := multiAdd_follows hp (hu.follows (orderS_same σ g) (fun x => pt_ofFn _) hfin) draw draw' D hd hd' s i hi (by
    intro _ o ho r hr x hx
    have h1 := (hdim o ho).1 r hr
    have h2 := (hdim o ho).2 x hx
    rw [Bool.eq_iff_iff]
    simp only [isinRow, List.all_eq_true, decide_eq_true_eq, mem_orderRow σ h1, mem_orderRow σ h2])
  simpa only [shift_zero, List.map_id] using h

/-! ## The units and the points already proposed -/

/-- Every point is predicted the same and as good as the others: one point is asked for, and a sample is used for three calls. -/
noncomputable def cxPar : Par ℚ (Fin 5) where
  n := 1
  m := 3
  force := false
  pred _ := (.fin 0, 1)
  inB := none
  acq _ _ := some 2
  cfg := { cond := fun _ _ _ => some 2, argsortDesc := exSort }
  order := List.reverse
  x0 := [0, 0]
  a0 := 1

/-- The unit of the first parameter is halved. -/
def cxDouble : List ℚ → List ℚ
  | x :: l => 2 * x :: l
  | [] => []

def cxState : PState ℚ :=
  { i := 4, mc := { orig := some ⟨[[1, 2], [2, 1]], [.fin 0, .fin 0], [1, 1], none⟩, re := none, isRe := false }, proposed := [[2, 1]] }

theorem exSort_perm {V : Type*} [LinearOrder V] [BoundedOrder V] (l : List (Option V)) : (exSort l).Perm (List.range l.length) :=
  List.perm_insertionSort _ _

theorem cx_follows : Follows cxDouble id cxPar cxPar where
  n := rfl
  m := rfl
  force := rfl
  pred _ := rfl
  inB := .inl ⟨rfl, rfl⟩
  acq _ _ := rfl
  cond _ _ _ := rfl
  argsort := rfl
  perm := exSort_perm
  order l := (List.map_reverse (f := changeCand cxDouble id id) (l := l)).symm
  a0 := rfl
  sub _ _ := rfl

theorem cx_run (x1 x2 : List ℚ) (hne : x1 ≠ x2) (i : PState ℚ) (x : List ℚ)
    (hs : i = { i := 4, mc := { orig := some ⟨[x1, x2], [.fin 0, .fin 0], [1, 1], none⟩, re := none, isRe := false }, proposed := [x2] })
    (hx : candidates [x1, x2] [x2] [x1, x2] = [x]) (draw : Prog AErr (Option (List (List ℚ) × Option (List ℝ)))) (D : List (List ℚ) × Option (List ℝ))
    (hd : Runs (fun _ : Fin 1 => draw) fun r => .ok (if r.val = 0 then some D else none)) :
    ∃ s2 : Fin 1 → PState ℚ, Runs (fun r : Fin 1 => multiAdd 1 r cxPar draw i) fun r => .ok (s2 r, [x], [.fin 0]) := by
  have hw : ∃ w, Nora.reweight cxPar.pred cxPar.inB ⟨[x1, x2], [.fin 0, .fin 0], [1, 1], none⟩ = .ok w ∧ w.X = [x1, x2] := by
    refine ⟨{ X := [x1, x2], y := [.fin 0, .fin 0], sigma := [1, 1], w := [.fin 1, .fin 1] }, ?_, rfl⟩
    simp [Nora.reweight, cxPar, within, oldWeights, Ext.sub, expE, mulE, Ext.pyMax, divE, Ext.divFin, Ext.lt, drop0, Ext.eqv, Ext.pyMax2, Ext.le, Ext.ge, Ext.gt]
  obtain ⟨w, hw, hwX⟩ := hw
  obtain ⟨out, s', h1, -, -, -, -, h6, -, h8, -⟩ := C121_multi_add_partial (p := 1) (by norm_num) cxPar (by simp [cxPar])
    (fun _ _ _ => by simp only [cxPar]; decide) exSort_sorts (fun l => List.reverse_perm l) (by simp [cxPar]; decide) (by decide) (by decide) (fun _ => draw)
    D hd (fun _ => i) 4 (fun _ => by rw [hs]) w.X [x2] (.inr ⟨rfl, by rw [hs], _, w, by rw [hs], hw, rfl⟩)
  rw [hwX, hx] at h6 h8
  obtain ⟨x', hx', -⟩ := h8 ⟨x, by simp, by simp [cxPar]; decide⟩
  have hlen := h6.length_le
  have hout : out = [x] := by
    match out, hx', hlen with
    | [z], _, _ => simpa using h6.subset
  refine ⟨s', ?_⟩
  simpa [hout, cxPar] using h1

/-- **C144** is false of NORA, gp_acquisition.py:1035-1046: which points of a sample that is used again have already been proposed is decided by `np.isin` of
their coordinates, whatever the parameter that these belong to, and of several such points the first one is removed. So the point (1, 2) is removed in the
place of (2, 1), which is proposed twice; if the first parameter is measured in half the unit, the right one is removed. -/
theorem C144_nora_counterexample (draw draw' : Prog AErr (Option (List (List ℚ) × Option (List ℝ)))) (D : List (List ℚ) × Option (List ℝ))
    (hd : Runs (fun _ : Fin 1 => draw) fun r => .ok (if r.val = 0 then some D else none))
    (hd' : Runs (fun _ : Fin 1 => draw') fun r => .ok (if r.val = 0 then some (mapDraw cxDouble D) else none)) :
    Follows cxDouble id cxPar cxPar ∧ [2, 1] ∈ cxState.proposed ∧
    (∃ s2 : Fin 1 → PState ℚ, Runs (fun r : Fin 1 => multiAdd 1 r cxPar draw cxState) fun r => .ok (s2 r, [[2, 1]], [.fin 0])) ∧
    (∃ s2 : Fin 1 → PState ℚ, Runs (fun r : Fin 1 => multiAdd 1 r cxPar draw' (mapP cxDouble id cxState)) fun r => .ok (s2 r, [[2, 2]], [.fin 0])) ∧
    ([[2, 1]] : List (List ℚ)).map cxDouble ≠ [[2, 2]] := by
  refine ⟨cx_follows, by simp [cxState], ?_, ?_, by decide +kernel⟩
  · exact cx_run [1, 2] [2, 1] (by decide +kernel) _ [2, 1] rfl (by decide +kernel) draw D hd
  · exact cx_run [2, 2] [4, 1] (by decide +kernel) _ [2, 2] (by simp [mapP, mapSample, cxDouble, cxState]; norm_num) (by decide +kernel) draw' _ hd'

example : ∃ s2 : Fin 1 → PState ℚ, Runs (fun r : Fin 1 => multiAdd 1 r cxPar (.ret (some ([], none))) cxState) fun r => .ok (s2 r, [[2, 1]], [.fin 0]) :=
  (C144_nora_counterexample (.ret (some ([], none))) (.ret (some ([], none))) ([], none) (by simpa using Runs.ret _) (by simpa [mapDraw] using Runs.ret _)).2.2.1

/-! ## Examples -/

/-- The predictions of a surrogate without classifier, trust region and ceiling. -/
noncomputable def exUse (g : Surr 2) (base : ℝ) : Par ℝ EReal where
  n := 3
  m := 3
  force := false
  pred x := (.fin (g.M.mean (g.chol _) (rawOf g.noise (g.train [])) (pt 2 x)), g.M.std (g.chol _) (rawOf g.noise (g.train [])) (pt 2 x))
  inB := none
  acq mu std := toV (Proposed.Kind.linear.f 1 g.noise base mu std)
  cfg := { cond := g.cond .linear 1 base, argsortDesc := exSort }
  order := List.reverse
  x0 := [0, 0]
  a0 := 1

theorem exUse_pred (g : Surr 2) (h1 : g.clf = none) (h2 : g.trust = none) (h3 : g.clip = none) (base : ℝ) (x : List ℝ) :
    (g.st []).predict [pt 2 x] false = .ok ([((exUse g base).pred x).1], [((exUse g base).pred x).2]) := by
  simp [St.predict, Surr.st, St.means, St.trustMask, h1, h2, h3, exUse]

theorem exUse_uses (φ : List ℝ → List ℝ) (c : ℝ) (g g' : Surr 2) (h : g.clf = none ∧ g.trust = none ∧ g.clip = none) (h' : g'.clf = none ∧ g'.trust = none ∧ g'.clip = none) :
    Uses φ c .linear 1 1 g g' (exUse g 1) (exUse g' (1 + c)) where
  pred := exUse_pred g h.1 h.2.1 h.2.2 1
  pred' := exUse_pred g' h'.1 h'.2.1 h'.2.2 _
  acq _ _ := rfl
  acq' _ _ := rfl
  cond := rfl
  cond' := rfl
  n := rfl
  m := rfl
  force := rfl
  inB := .inl ⟨rfl, rfl⟩
  argsort := rfl
  perm := exSort_perm
  order l := (List.map_reverse (f := changeCand φ (Shift.shift c) id) (l := l)).symm
  a0 := rfl

theorem exG_plain : exG.clf = none ∧ exG.trust = none ∧ exG.clip = none := by simp [exG, cxG]

theorem exG_fin : ∀ q ∈ exG.train [], q.2.isFinite = true := by
  intro q hq
  have : q ∈ exG.all := by
    unfold Surr.train at hq
    split at hq <;> simpa using List.mem_of_mem_filter hq
  simp only [exG, cxG] at this
  revert this
  simp only [List.mem_cons, List.not_mem_nil, or_false]
  rintro (rfl | rfl) <;> rfl

/-- Two processes have proposed (3, 4), of a sample of three points that is used again; `exFirst` before the first call. -/
def exAgain (r : Fin 2) : PState ℝ :=
  { i := 4, mc := { orig := if r.val = 0 then some ⟨[[3, 4], [-20, 0], [5, 6]], [.fin 0, .fin 0, .fin 0], [1, 1, 1], none⟩ else none, re := none, isRe := false },
    proposed := [[3, 4]] }

noncomputable def exDrawn (φ : List ℝ → List ℝ) (r : Fin 2) : Prog AErr (Option (List (List ℝ) × Option (List ℝ))) :=
  .ret (if r.val = 0 then some ([[-20, 0], [0, 2]].map φ, none) else none)

example (c : ℝ) := C143_nora (p := 2) (by norm_num) c .linear 1 1 exG exG_fin (exUse exG 1) (exUse (shiftS c exG) (1 + c))
  (exUse_uses id c exG (shiftS c exG) exG_plain exG_plain) (exDrawn id) ([[-20, 0], [0, 2]].map id, none) (Runs.ret _) exAgain 4 (fun _ => rfl)

example := C150_nora (p := 2) (by norm_num) (Equiv.swap 0 1) .linear 1 1 exG exG_fin (exUse exG 1) (exUse (orderS (Equiv.swap 0 1) exG) (1 + 0))
  (exUse_uses _ 0 exG (orderS (Equiv.swap 0 1) exG) exG_plain (by simp [orderS, exG, cxG])) (exDrawn id) (exDrawn (orderRow (Equiv.swap 0 1)))
  ([[-20, 0], [0, 2]], none) (Runs.ret _) (Runs.ret _) exAgain 4 (fun _ => rfl)
  (by intro o ho; simp only [exAgain, if_true, Option.some.injEq] at ho; subst ho; simp [exAgain])

/-- The first parameter in half the unit. -/
noncomputable def exA : Fin 2 → ℝ := ![2, 1]

example := C144_nora_partial (p := 2) (by norm_num) exA 0 (fun i => by fin_cases i <;> simp [exA]) (fun x i => x i / exA i) .linear 1 1 exG
  (fun x => by funext i; fin_cases i <;> simp [exA, Units.aff, exG, cxG]) exG_fin (exUse exG 1) (exUse (unitS exA 0 (fun x i => x i / exA i) exG) (1 + 0))
  (exUse_uses _ 0 exG _ exG_plain (by simp [unitS, exG, cxG])) (exDrawn id) (exDrawn (unitRow exA 0))
  ([[-20, 0], [0, 2]], none) (Runs.ret _) (Runs.ret _) exAgain 4 (fun _ => rfl)
  (by
    intro _ o ho
    simp only [exAgain, if_true, Option.some.injEq] at ho
    subst ho
    simp [exAgain, unitRow, Units.aff, pt, exA, List.ofFn_succ]
    norm_num)

end GPry.PoolGp
