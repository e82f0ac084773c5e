/-!
# Basic types of the model

Source: `numba_celltree/constants.py`, `numba_celltree/utils.py`, and the conventions of numba compiled code.
-/

namespace Celltree

/-- Ways in which the code can fail. `zeroDiv`: numba (default `error_model="python"`) raises
`ZeroDivisionError` on scalar division by zero. `indexError`: index out of range in a list (checked by numba).
`oob`: access outside a numpy array; compiled numba code does not check this (undefined behaviour).
`fuel`: the fuel of a model loop ran out (i.e. the loop of the code did not end in that many rounds).
`valueError`: explicit `raise ValueError`. `runtimeError`: explicit `raise RuntimeError`. -/
inductive Err
  | zeroDiv | indexError | oob | fuel | valueError | runtimeError
deriving DecidableEq, Repr

/-- Computations of the model: a value or a failure. -/
abbrev M := Except Err

/-- `constants.py:36-43` `Point` and `Vector` (same layout; one type in the model). -/
structure Pt (F : Type) where
  x : F
  y : F
deriving DecidableEq, Repr

/-- `constants.py:51-55` `Box`; also a row `(xmin, xmax, ymin, ymax)` of `bb_coords`. -/
structure Box (F : Type) where
  xmin : F
  xmax : F
  ymin : F
  ymax : F
deriving DecidableEq, Repr

/-- `constants.py:58-61` `Triangle`. -/
structure Triangle (F : Type) where
  a : Pt F
  b : Pt F
  c : Pt F
deriving DecidableEq, Repr

/-- `point[dim]` for `dim` in `{0, 1}` (`False = x`, `True = y`). -/
def Pt.get {F : Type} (p : Pt F) (dim : Bool) : F := if dim then p.y else p.x

/-- `box[2 * dim]`: lower bound in dimension `dim`. -/
def Box.lo {F : Type} (b : Box F) (dim : Bool) : F := if dim then b.ymin else b.xmin

/-- `box[2 * dim + 1]`: upper bound in dimension `dim`. -/
def Box.hi {F : Type} (b : Box F) (dim : Bool) : F := if dim then b.ymax else b.xmax

/-- The float constants `FLOAT_MAX`, `FLOAT_MIN`, `MIN_TOLERANCE`, `TOLERANCE_FACTOR`
(`constants.py:146-150`), and the square root, as parameters of the model. -/
structure Env (F : Type) where
  floatMax : F
  floatMin : F
  minTol : F
  tolFactor : F
  sqrt : F → F

/-- `constants.py:135` `FILL_VALUE`. -/
def fillValue : Int := -1

/-- `constants.py:134` `MAX_N_VERTEX`. -/
def maxNVertex : Nat := 32

/-- `constants.py:144` `INITIAL_STACK_LENGTH`. -/
def initialStackLength : Nat := 32

/-- `utils.py:102` `CLIP_MAX_N_VERTEX`. -/
def clipMaxNVertex : Nat := maxNVertex * 2

/-- Read `l[i]` for `i ≥ 0` from a numpy array. -/
def rd {α : Type} (l : List α) (i : Nat) : M α :=
  match l[i]? with
  | some a => .ok a
  | none => .error .oob

/-- Write `l[i] = v` for `i ≥ 0` in a numpy array. -/
def wr {α : Type} (l : List α) (i : Nat) (v : α) : M (List α) :=
  if i < l.length then .ok (l.set i v) else .error .oob

/-- Position of a possibly negative numpy index (numba wraps negative indices around). -/
def wrapIdx (n : Nat) (i : Int) : Int := if i < 0 then (n : Int) + i else i

/-- Read `l[i]` with a possibly negative index. -/
def rdI {α : Type} (l : List α) (i : Int) : M α :=
  if wrapIdx l.length i < 0 then .error .oob else rd l (wrapIdx l.length i).toNat

/-- Write `l[i] = v` with a possibly negative index. -/
def wrI {α : Type} (l : List α) (i : Int) (v : α) : M (List α) :=
  if wrapIdx l.length i < 0 then .error .oob else wr l (wrapIdx l.length i).toNat v

section
variable {F : Type}

/-- Scalar division, raising on a zero divisor. -/
def fdiv [Div F] [BEq F] [Zero F] (x y : F) : M F :=
  if y == 0 then .error .zeroDiv else .ok (x / y)

/-- Python/numba `min(a, b)`. -/
def fmin [LT F] [DecidableLT F] (a b : F) : F := if b < a then b else a

/-- Python/numba `max(a, b)`. -/
def fmax [LT F] [DecidableLT F] (a b : F) : F := if a < b then b else a

/-- Python/numba `abs(a)`. -/
def fabs [Zero F] [Neg F] [LT F] [DecidableLT F] (a : F) : F := if a < 0 then -a else a

/-- The literal `0.5`. -/
def half [One F] [Add F] [Div F] : F := 1 / (1 + 1)

/-- `==` of two named tuples `Point`: componentwise. -/
def Pt.eqv [BEq F] (a b : Pt F) : Bool := a.x == b.x && a.y == b.y

end

/-! ## Parallel loops -/

/-- `for i in nb.prange(n): result[i] = body(i)`. The iterations may run in any order: `sched` is the order in
which they are executed. `init` is the (arbitrary) initial content of `result`. Finer interleavings are not
modelled: an iteration reads only data that no iteration writes, and writes only its own slot `i`. -/
def prange {β : Type} (sched : List Nat) (n : Nat) (init : β) (body : Nat → M β) : M (List β) :=
  sched.foldlM (fun res i => do wr res i (← body i)) (List.replicate n init)

/-! ## Growable stacks (`utils.py:19-97`) -/

/-- A stack: a numpy array and the number of used rows (`stack`, `size` in the code). -/
structure Stk (α : Type) where
  arr : List α
  size : Nat
deriving Repr

/-- `utils.py:19-31` `allocate_stack`, `allocate_double_stack`, `allocate_triple_stack` (rows of the 2D arrays are
tuples in the model). `np.empty` content is arbitrary: `default` here, see `Props/Stack.lean` for independence. -/
def Stk.alloc {α : Type} [Inhabited α] : Stk α := ⟨List.replicate initialStackLength default, 0⟩

/-- `utils.py:91-97` `grow`: double the capacity, keep the content; the new part is garbage `g`. -/
def growArr {α : Type} (g : α) (arr : List α) : List α := arr ++ List.replicate arr.length g

/-- `utils.py:40-44` `push`, `55-60` `push_both`, `72-78` `push_triple`. -/
def Stk.push {α : Type} [Inhabited α] (s : Stk α) (v : α) : M (Stk α) := do
  let arr := if s.size ≥ s.arr.length then growArr default s.arr else s.arr
  let arr ← wr arr s.size v
  .ok ⟨arr, s.size + 1⟩

/-- `utils.py:35-36` `pop`, `64-68` `pop_both`, `82-87` `pop_triple`. Popping an empty stack is index `-1`, which
wraps around to the last row (garbage); callers guard with `while size > 0`. -/
def Stk.pop {α : Type} (s : Stk α) : M (α × Stk α) := do
  let v ← rdI s.arr ((s.size : Int) - 1)
  .ok (v, ⟨s.arr, s.size - 1⟩)

/-- `stack[i] = v` for the initial rows (e.g. `creation.py:245-247`, `query.py:67-69`). -/
def Stk.single {α : Type} [Inhabited α] (v : α) : M (Stk α) := do
  let arr ← wr (Stk.alloc (α := α)).arr 0 v
  .ok ⟨arr, 1⟩

end Celltree
