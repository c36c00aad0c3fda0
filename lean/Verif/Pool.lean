import Verif.Gpr
import Mathlib.Order.BoundedOrder.Basic

/-!
# Model of `RankedPool` (`gpry/gp_acquisition.py:1194-1670`) and of the merging of pools (1126-1191)

Acquisition values are `Option V` with `V` a bounded linear order: `none` is NaN, `some ⊥` is `-inf`,
`some ⊤` is `+inf`.  Only comparisons are done with them.

The acquisition function conditioned on lies is an arbitrary function `cond prefix x y`: the value of
`acq_func(y, gpr_cond.predict_std(x))` for the surrogate with the points of `prefix` (positions and
predicted values) added.  `numpy.argsort` is an arbitrary function (theorems assume it sorts).
Logging, verbosity and the counter of cached models are left out.
-/

namespace GPry.Ranked

open GPry.Gpr (maskL)

/-- Python exceptions; `fuel` is not one of them, it means that a loop did not finish within the number of
iterations given (proved not to happen). -/
inductive PErr
  | valueError | assertionError | indexError | attributeError | fuel
deriving DecidableEq, Repr

section Values
variable {V : Type*} [LinearOrder V]

/-- IEEE `a >= b`. -/
def geV : Option V → Option V → Bool
  | some a, some b => decide (b ≤ a)
  | _, _ => false

/-- IEEE `a <= b`. -/
def leV (a b : Option V) : Bool := geV b a

/-- IEEE `a < b`. -/
def ltV : Option V → Option V → Bool
  | some a, some b => decide (a < b)
  | _, _ => false

/-- Python's `min(a, b)`: `b` only if `b < a`. -/
def pyMin2 (a b : Option V) : Option V := if ltV b a then b else a

/-- `np.minimum` (NaN propagates). -/
def npMin2 : Option V → Option V → Option V
  | some a, some b => some (min a b)
  | _, _ => none

/-- `np.argmax`: first NaN if there is one, otherwise first maximum. -/
def argmaxAux : List (Option V) → ℕ → ℕ → Option V → ℕ
  | [], _, best, _ => best
  | v :: l, i, best, bv =>
    match bv with
    | none => best
    | some b => match v with
      | none => i
      | some w => if b < w then argmaxAux l (i + 1) i (some w) else argmaxAux l (i + 1) best (some b)

/-- `np.argmax` of a non-empty array. -/
def argmax : List (Option V) → ℕ
  | [] => 0
  | v :: l => argmaxAux l 1 0 v

end Values

/-- Attributes of a `RankedPool` (gp_acquisition.py:1217-1232).  `cache[i]` (`gpr_cond[i]`) holds the lies added to
the cached model. -/
structure Pool (P Y V : Type*) where
  X : List P
  y : List Y
  sigma : List Y
  acq : List (Option V)
  acqCond : List (Option V)
  cache : List (Option (List (P × Y)))

/-- External functions. -/
structure Cfg (P Y V : Type*) where
  cond : List (P × Y) → P → Y → Option V
  /-- `np.argsort(-values)` -/
  argsortDesc : List (Option V) → List ℕ

variable {P Y V : Type*} [LinearOrder V] [BoundedOrder V]

/-- gp_acquisition.py:1217-1232 `__init__` (arrays of zeros; `x0`, `y0` are the zeros), and 1561-1562 `reset_cache`. -/
def Pool.init (x0 : P) (y0 : Y) (a0 : V) (size : ℕ) : Pool P Y V :=
  ⟨List.replicate (size + 1) x0, List.replicate (size + 1) y0, List.replicate (size + 1) y0,
    List.replicate (size + 1) (some a0), List.replicate (size + 1) (some ⊥), List.replicate (size + 1) none⟩

/-- gp_acquisition.py:1234-1235 `__len__`. -/
def Pool.len (p : Pool P Y V) : ℕ := p.y.length - 1

/-- gp_acquisition.py:1237-1247 `min_acq` (index `-1` for an empty pool is the last element). -/
def Pool.minAcq (p : Pool P Y V) : Option V :=
  if p.len = 0 then p.acqCond.getLastD none else p.acqCond.getD (p.len - 1) none

/-- `X[:i], y[:i]`. -/
def Pool.pre (p : Pool P Y V) (i : ℕ) : List (P × Y) := (p.X.zip p.y).take i

/-- gp_acquisition.py:1522-1556 `cache_model(i - 1)`. (That `append_to_data` of the lies succeeds is assumed.) -/
def Pool.cacheModel (p : Pool P Y V) (i : ℕ) : Pool P Y V :=
  if i = 0 then p else { p with cache := p.cache.set (i - 1) (some (p.pre i)) }

/-- gp_acquisition.py:1462-1466: position after the lowest element, among the first `n`, with `acq_cond >= a`. -/
def posFrom (conds : List (Option V)) (a : Option V) : ℕ → ℕ
  | 0 => 0
  | j + 1 => if geV (conds.getD j none) a then j + 1 else posFrom conds a j

/-- gp_acquisition.py:1456-1488: the loop finding the position of the new point. The first argument is the maximum
number of iterations. -/
def search (cfg : Cfg P Y V) (p : Pool P Y V) (x : P) (y : Y) : ℕ → Option V → ℕ → Except PErr (ℕ × Option V)
  | 0, _, _ => .error .fuel
  | fuel + 1, a, last =>
    let i := posFrom p.acqCond a p.len
    if i = 0 ∨ i = last ∨ i = p.len then .ok (i, a)
    else match p.cache.getD (i - 1) none with
      | none => .error .attributeError
      | some pre => search cfg p x y fuel (pyMin2 a (cfg.cond pre x y)) i

/-- gp_acquisition.py:1504-1505: `pool[i + 1:] = pool[i:-1]; pool[i] = value`. -/
def shift {α : Type*} (l : List α) (i : ℕ) (v : α) : List α := l.take i ++ v :: (l.drop i).dropLast

/-- `l[a:b]`. -/
def slice {α : Type*} (l : List α) (a b : ℕ) : List α := (l.take b).drop a

/-- `l[a:b] = new`. -/
def setSlice {α : Type*} (l : List α) (a b : ℕ) (new : List α) : List α := l.take a ++ new ++ l.drop b

/-- `l[a:b] = l[a + js]`. -/
def reorder {α : Type*} (l : List α) (a b : ℕ) (js : List ℕ) : List α :=
  setSlice l a b (js.filterMap fun j => l[a + j]?)

/-- gp_acquisition.py:1598-1670 `sort(i_start)` with `i_start = len - n`. -/
def sortFrom (cfg : Cfg P Y V) : ℕ → Pool P Y V → Except PErr (Pool P Y V)
  | 0, p => .ok p
  | n + 1, p =>
    let i := p.len - (n + 1)
    let p := p.cacheModel i
    if p.acqCond.getD i none = some ⊥ then .ok p
    else
      let i1 := p.acqCond.findIdx (fun c => decide (c = some ⊥))
      let ac0 := ((slice p.X i i1).zip (slice p.y i i1)).map fun q => cfg.cond (p.pre i) q.1 q.2
      let ac := if i = 0 then ac0 else ac0.map fun v => npMin2 v (p.acqCond.getD (i - 1) none)
      let js := cfg.argsortDesc ac
      match js with
      | [] => .error .indexError
      | j0 :: _ =>
        if ac.getD j0 none = some ⊥ then
          .ok { p with acqCond := setSlice p.acqCond i i1 (List.replicate (i1 - i) (some ⊥)) }
        else
          sortFrom cfg n { p with
            X := reorder p.X i i1 js, y := reorder p.y i i1 js, sigma := reorder p.sigma i i1 js,
            acq := reorder p.acq i i1 js,
            acqCond := setSlice p.acqCond i i1 (js.filterMap fun j => ac[j]?) }

/-- gp_acquisition.py:1598 `sort(i_start)`. -/
def sort (cfg : Cfg P Y V) (i : ℕ) (p : Pool P Y V) : Except PErr (Pool P Y V) := sortFrom cfg (p.len - i) p

/-- gp_acquisition.py:1392-1520 `add_one` with all the arguments given and `acq_nan_is_null=False`. -/
def addOne (cfg : Cfg P Y V) (p : Pool P Y V) (x : P) (y s : Y) (a : Option V) : Except PErr (Pool P Y V) :=
  if leV a p.minAcq then .ok p
  else match a with
  | none => .error .valueError
  | some _ =>
    match search cfg p x y (p.len + 2) a p.len with
    | .error e => .error e
    | .ok (i, ac) =>
      if p.len ≤ i then .ok p
      else
        let p := { p with
          X := shift p.X i x, y := shift p.y i y, sigma := shift p.sigma i s, acq := shift p.acq i a,
          acqCond := shift p.acqCond i ac }
        if ltV (some ⊥) ac then
          match sort cfg (i + 1) p with
          | .error e => .error e
          | .ok p => .ok { p with acqCond := p.acqCond.set (p.acqCond.length - 1) (some ⊥) }
        else .error .assertionError

/-- A candidate: position, predicted mean, standard deviation, acquisition value. -/
structure Ent (P Y V : Type*) where
  x : P
  y : Y
  s : Y
  a : V
deriving DecidableEq

/-- gp_acquisition.py:1313-1334 `add(..., method="single...")`: points one by one in some order. -/
def addMany (cfg : Cfg P Y V) (p : Pool P Y V) : List (P × Y × Y × Option V) → Except PErr (Pool P Y V)
  | [] => .ok p
  | (x, y, s, a) :: l => match addOne cfg p x y s a with
    | .error e => .error e
    | .ok p => addMany cfg p l

/-- gp_acquisition.py:1337-1390 `add_bulk(X, y, sigma, acq, i_start)` with `i_start = len - 1 - n` (pools of size at
least 1). -/
def bulkFrom (cfg : Cfg P Y V) (X : List P) (y s : List Y) (a : List (Option V)) :
    ℕ → Pool P Y V → Pool P Y V
  | n, p =>
    let i := p.len - 1 - n
    let p := p.cacheModel i
    let ac := if i = 0 then a else (X.zip y).map fun q => cfg.cond (p.pre i) q.1 q.2
    let im := argmax ac
    match X[im]?, y[im]?, s[im]?, a[im]?, ac[im]? with
    | some xm, some ym, some sm, some am, some m =>
      if m = some ⊤ then p
      else
        let p := { p with
          X := p.X.set i xm, y := p.y.set i ym, sigma := p.sigma.set i sm, acq := p.acq.set i am,
          acqCond := p.acqCond.set i m }
        match n with
        | 0 => p
        | n + 1 =>
          let mask := (ac.map fun v => !decide (v = some ⊥)).set im false
          bulkFrom cfg (maskL mask X) (maskL mask y) (maskL mask s) (maskL mask a) n p
    | _, _, _, _, _ => p  -- no candidates (`acq_cond.size == 0`)

/-- gp_acquisition.py:1337 `add_bulk(X, y, sigma, acq)`. -/
def addBulk (cfg : Cfg P Y V) (p : Pool P Y V) (X : List P) (y s : List Y) (a : List (Option V)) : Pool P Y V :=
  bulkFrom cfg X y s a (p.len - 1) p

/-- gp_acquisition.py:1575-1596 `copy(drop_empty=True)`, followed by `X[:n], y[:n]` (1097-1098). -/
def Pool.result (p : Pool P Y V) (n : ℕ) : List P × List Y :=
  let i := (p.acqCond.take p.len).findIdx (fun c => decide (c = some ⊥))
  if i < p.len then ((p.X.take i).take n, (p.y.take i).take n) else (p.X.take n, p.y.take n)

/-- `np.isfinite`. -/
def isFin : Option V → Bool
  | none => false
  | some v => !decide (v = ⊥) && !decide (v = ⊤)

/-- A candidate: position, mean, standard deviation, acquisition value. -/
abbrev Cand (P Y V : Type*) := P × Y × Y × Option V

/-- gp_acquisition.py:1148-1171 `_gather_pools` (what rank 0 returns), followed by 1185-1189: `add(..., method="bulk")`
to a new pool.  gp_acquisition.py:1181-1182: with a single process, the pool itself. -/
def mergePools (cfg : Cfg P Y V) (x0 : P) (y0 : Y) (a0 : V) (size : ℕ) (pools : List (Pool P Y V)) : Pool P Y V :=
  match pools with
  | [p] => p
  | _ =>
    let mask := (pools.flatMap fun p => p.acqCond.take p.len).map isFin
    addBulk cfg (Pool.init x0 y0 a0 size) (maskL mask (pools.flatMap fun p => p.X.take p.len))
      (maskL mask (pools.flatMap fun p => p.y.take p.len)) (maskL mask (pools.flatMap fun p => p.sigma.take p.len))
      (maskL mask (pools.flatMap fun p => p.acq.take p.len))

/-- gp_acquisition.py:1143-1145: every process fills a new pool with its share, one by one. -/
def rankAll (cfg : Cfg P Y V) (x0 : P) (y0 : Y) (a0 : V) (size : ℕ) :
    List (List (Cand P Y V)) → Except PErr (List (Pool P Y V))
  | [] => .ok []
  | l :: ls => match addMany cfg (Pool.init x0 y0 a0 size) l with
    | .error e => .error e
    | .ok p => match rankAll cfg x0 y0 a0 size ls with
      | .error e => .error e
      | .ok ps => .ok (p :: ps)

/-- gp_acquisition.py:1127-1146 `_parallel_rank_and_merge` with `method="single sort acq"`, `merge_method="bulk"`;
`shares` has one list of candidates per process, in the order in which they are added. -/
def rankAndMerge (cfg : Cfg P Y V) (x0 : P) (y0 : Y) (a0 : V) (size : ℕ) (shares : List (List (Cand P Y V))) :
    Except PErr (Pool P Y V) :=
  match rankAll cfg x0 y0 a0 size shares with
  | .error e => .error e
  | .ok pools => .ok (mergePools cfg x0 y0 a0 size pools)

end GPry.Ranked
