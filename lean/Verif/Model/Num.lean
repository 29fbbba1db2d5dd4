import Mathlib.Algebra.Order.Field.Rat

/-!
# Numbers as the Python code sees them

Python exceptions, scalars and one-dimensional numpy arrays.
-/

namespace Flix

/-- The class of a raised Python exception (messages are dropped)
(exceptions are never caught inside the modelled code, e.g. structure.py:210-211). -/
inductive Err
  | exception      -- a bare `Exception(...)`
  | assertion      -- `AssertionError`
  | value          -- `ValueError`
  | type           -- `TypeError`
  | key            -- `KeyError`
  | index          -- `IndexError`
  | attribute      -- `AttributeError`
  | notImplemented -- `NotImplementedError`
  | zeroDivision   -- `ZeroDivisionError`
  | name           -- `NameError`
  deriving DecidableEq, Repr

/-- `Numeric` of core.py:14-17: an `int`/`float`/numpy scalar or a one-dimensional `np.ndarray`.
Simplification: doubles are exact rationals. -/
inductive Num
  | s (x : ℚ)
  | v (xs : List ℚ)
  deriving DecidableEq, Repr

namespace Num

/-- `1 if np.isscalar(x) else len(x)`, used e.g. in math_modeling.py:222 and 370. -/
def len : Num → Nat
  | s _ => 1
  | v xs => xs.length

/-- `np.isscalar(x)` (utils.py:13-39). -/
def isScalar : Num → Bool
  | s _ => true
  | v _ => false

/-- An elementwise unary numpy operation or an operation with a Python scalar, e.g. `-1 * x`,
`np.maximum(EPSILON, x)` (e.g. features.py:151, 426). -/
def map (f : ℚ → ℚ) : Num → Num
  | s x => s (f x)
  | v xs => v (xs.map f)

/-- An elementwise binary numpy operation with numpy broadcasting in one dimension: a scalar or a
length-1 array is repeated; other length differences raise `ValueError` (e.g. components.py:461-474). -/
def zip (f : ℚ → ℚ → ℚ) : Num → Num → Except Err Num
  | s x, s y => .ok (s (f x y))
  | s x, v ys => .ok (v (ys.map (f x)))
  | v xs, s y => .ok (v (xs.map (fun x => f x y)))
  | v xs, v ys =>
    if xs.length = ys.length then .ok (v (List.zipWith f xs ys))
    else match xs, ys with
      | [x], ys => .ok (v (ys.map (f x)))
      | xs, [y] => .ok (v (xs.map (fun x => f x y)))
      | _, _ => .error .value

/-- `np.multiply(a, b)` (features.py:772-773). -/
def mul : Num → Num → Except Err Num := zip (· * ·)

/-- `np.add(a, b)` (features.py:315). -/
def add : Num → Num → Except Err Num := zip (· + ·)

end Num

/-- `utils.as_vector(value, length)` for a value that is not `None` (utils.py:13-39): a scalar is
repeated, an array must have exactly the requested length. -/
def asVector (a : Num) (length : Nat) : Except Err (List ℚ) :=
  match a with
  | .s x => .ok (List.replicate length x)
  | .v xs => if xs.length ≠ length then .error .exception else .ok xs

/-- `utils.as_vector(value, length)` including `None` (utils.py:27-28). -/
def asVectorOpt (a : Option Num) (length : Nat) : Except Err (List (Option ℚ)) :=
  match a with
  | none => .ok (List.replicate length none)
  | some a => (asVector a length).map (·.map some)

end Flix
