import Verif.Kernels

set_option linter.all false

/-!
# Arithmetic of kernel objects (gpry/kernels.py 118-145)

`gpry/kernels.py` defines its own classes (`RBF`, `Sum`, ...), each a subclass of the class of scikit-learn with the same name
(211, 281, 435, 515, 601, 612, 647, 671, 681, 702), and a base class `Kernel`, subclass of that of scikit-learn, with
`__add__`, `__radd__`, `__mul__`, `__rmul__` (127-145). It does not define `__pow__`: the method found is that of
scikit-learn's `Kernel`, which builds an `Exponentiation` of scikit-learn. The operators of scikit-learn are modelled too
(same code as 127-145, with the classes of scikit-learn).

Python calls the reflected method of the right operand first if its class is a subclass of the class of the left one; with
these classes this is the case for an object of scikit-learn on the left and one of GPry of the same name on the right.

Simplifications: the attributes of the kernels of scikit-learn other than `gradient_x` are not modelled; `WhiteKernel` as in
`Kernels.lean` (two different arrays); a `ConstantKernel` whose constant is a kernel has an array of kernels as its value, and
so have the kernels containing it (an exception here, `.notNumbers`).
-/

namespace GPry.KernelOps

open GPry.Kernels

variable {d : ℕ}

/-- Where the class of an object is defined. -/
inductive Lib
  | gpry | sk
deriving DecidableEq, Repr

/-- Kernels that are not built from others. -/
inductive Atom (d : ℕ)
  | rbf (ls : Fin d → ℝ)
  | matern (nu2 : ℕ) (ls : Fin d → ℝ)
  | rq (ls alpha : ℝ)
  | expSine (ls period : ℝ)
  | const (c : ℝ)
  | white
  | dot (sigma0 : ℝ)

def Atom.expr : Atom d → KExpr d
  | rbf ls => .rbf ls
  | matern n ls => .matern n ls
  | rq l a => .rq l a
  | expSine l p => .expSine l p
  | const c => .const c
  | white => .white
  | dot s => .dot s

/-- Kernel objects. `wrap` is a `ConstantKernel` with a kernel in place of the number. -/
inductive KObj (d : ℕ)
  | atom (l : Lib) (a : Atom d)
  | sum (l : Lib) (a b : KObj d)
  | prod (l : Lib) (a b : KObj d)
  | pow (l : Lib) (a : KObj d) (p : ℝ)
  | wrap (l : Lib) (a : KObj d)

def KObj.lib : KObj d → Lib
  | atom l _ | sum l _ _ | prod l _ _ | pow l _ _ | wrap l _ => l

/-- Names of the classes. -/
inductive Cls
  | RBF | Matern | RationalQuadratic | ExpSineSquared | ConstantKernel | WhiteKernel | DotProduct | Sum | Product | Exponentiation
deriving DecidableEq, Repr

def Atom.cls : Atom d → Cls
  | rbf _ => .RBF
  | matern _ _ => .Matern
  | rq _ _ => .RationalQuadratic
  | expSine _ _ => .ExpSineSquared
  | const _ => .ConstantKernel
  | white => .WhiteKernel
  | dot _ => .DotProduct

def KObj.cls : KObj d → Cls
  | atom _ a => a.cls
  | sum _ _ _ => .Sum
  | prod _ _ _ => .Product
  | pow _ _ _ => .Exponentiation
  | wrap _ _ => .ConstantKernel

/-- Numbers and kernels, the operands. -/
inductive Operand (d : ℕ)
  | num (c : ℝ)
  | ker (k : KObj d)

/-- `isinstance(b, Kernel)` in the methods of `l`: kernels.py:128, 133, 138, 143 test the class of GPry. -/
def isKernel (l : Lib) : Operand d → Bool
  | .num _ => false
  | .ker k => decide (l = .sk) || decide (k.lib = .gpry)

/-- `b`, or `ConstantKernel(b)`. -/
def coerce (l : Lib) : Operand d → KObj d
  | .num c => .atom l (.const c)
  | .ker k => if isKernel l (.ker k) then k else .wrap l k

/-- kernels.py:127-130 `__add__` and 137-140 `__mul__`: `mk` is `Sum` or `Product`. -/
def opLeft (mk : Lib → KObj d → KObj d → KObj d) (a : KObj d) (b : Operand d) : KObj d := mk a.lib a (coerce a.lib b)

/-- kernels.py:132-135 `__radd__`, 142-145 `__rmul__` -/
def opRight (mk : Lib → KObj d → KObj d → KObj d) (a : Operand d) (b : KObj d) : KObj d := mk b.lib (coerce b.lib a) b

/-- Whether the method of the right operand is called first. -/
def reflected (a b : KObj d) : Bool := decide (a.lib = .sk) && decide (b.lib = .gpry) && decide (a.cls = b.cls)

/-- `a + b` or `a * b`, with `f` for two numbers. -/
noncomputable def pyOp (f : ℝ → ℝ → ℝ) (mk : Lib → KObj d → KObj d → KObj d) : Operand d → Operand d → Operand d
  | .num c, .num c' => .num (f c c')
  | .num c, .ker b => .ker (opRight mk (.num c) b)
  | .ker a, .num c => .ker (opLeft mk a (.num c))
  | .ker a, .ker b => .ker (if reflected a b then opRight mk (.ker a) b else opLeft mk a (.ker b))

/-- `a ** p`: scikit-learn's `Kernel.__pow__`, for the kernels of GPry too. -/
noncomputable def pyPow : Operand d → ℝ → Operand d
  | .num c, p => .num (c ^ p)
  | .ker k, p => .ker (.pow .sk k p)

/-- Expressions of a program that builds a kernel with classes of GPry. -/
inductive PExpr (d : ℕ)
  | num (c : ℝ)
  | atom (a : Atom d)
  | add (a b : PExpr d)
  | mul (a b : PExpr d)
  | pow (a : PExpr d) (p : ℝ)

/-- The object it builds. -/
noncomputable def PExpr.build : PExpr d → Operand d
  | num c => .num c
  | atom a => .ker (.atom .gpry a)
  | add a b => pyOp (· + ·) .sum a.build b.build
  | mul a b => pyOp (· * ·) .prod a.build b.build
  | pow a p => pyPow a.build p

inductive OErr
  | notNumbers | attributeError | kernel (e : KErr)
deriving DecidableEq, Repr

/-- `k(X, Y)`, one element. -/
noncomputable def KObj.value (general : ℕ → ℝ → ℝ) : KObj d → (Fin d → ℝ) → (Fin d → ℝ) → Except OErr ℝ
  | atom _ a, x, y => .ok (a.expr.eval general x y)
  | sum _ a b, x, y =>
    match a.value general x y, b.value general x y with
    | .ok u, .ok v => .ok (u + v)
    | .error e, _ => .error e
    | _, .error e => .error e
  | prod _ a b, x, y =>
    match a.value general x y, b.value general x y with
    | .ok u, .ok v => .ok (u * v)
    | .error e, _ => .error e
    | _, .error e => .error e
  | pow _ a p, x, y =>
    match a.value general x y with
    | .ok u => .ok (u ^ p)
    | .error e => .error e
  | wrap _ _, _, _ => .error .notNumbers

/-- The expression of `Kernels.lean`, for objects without a kernel in place of a number. -/
def KObj.expr? : KObj d → Option (KExpr d)
  | atom _ a => some a.expr
  | sum _ a b => do some (.sum (← a.expr?) (← b.expr?))
  | prod _ a b => do some (.prod (← a.expr?) (← b.expr?))
  | pow _ a p => do some (.pow (← a.expr?) p)
  | wrap _ _ => none

/-- Whether `gradient_x` is found in the object and in those of which it calls the method (all of them). -/
def KObj.hasGrad : KObj d → Bool
  | atom l _ | wrap l _ => decide (l = .gpry)
  | sum l a b | prod l a b => decide (l = .gpry) && a.hasGrad && b.hasGrad
  | pow l a _ => decide (l = .gpry) && a.hasGrad

/-- `k.gradient_x(x, X_train)` (row of `y`), with `x` of one dimension. -/
noncomputable def KObj.gradX (general : ℕ → ℝ → ℝ) (k : KObj d) (x y : Fin d → ℝ) : Except OErr (Fin d → ℝ) :=
  if k.hasGrad then
    match k.expr? with
    | none => .error .notNumbers
    | some e =>
      match e.gradX general 1 x y with
      | .ok g => .ok g
      | .error err => .error (.kernel err)
  else .error .attributeError

end GPry.KernelOps
