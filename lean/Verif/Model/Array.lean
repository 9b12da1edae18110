import Verif.Model.Py
/-
numpy arrays: shape and elements in C order.  `ndarray.T`, `np.atleast_2d`, reshape as used by `Marshallers.py:794-804`,
`1386-1387`, `1417-1418`, `1445-1446`.
-/
namespace HS

/-- `np.prod(shape)`: number of elements (numpy's 64 bit overflow is not modelled). -/
def prodN : List Nat → Nat
  | [] => 1
  | d :: r => d * prodN r

/-- All index tuples of a shape, in C order. -/
def indicesN : List Nat → List (List Nat)
  | [] => [[]]
  | d :: r => (List.range d).flatMap fun i => (indicesN r).map (i :: ·)

/-- Position of an index tuple in C order. -/
def ravelN : List Nat → List Nat → Nat
  | _ :: r, i :: t => i * prodN r + ravelN r t
  | _, _ => 0

/-- Elements of `a.T` in C order, `a` having the given shape: element `(i_1, …, i_n)` of `a.T` is element `(i_n, …, i_1)` of `a`. -/
def transposeData {α : Type} [Inhabited α] (shape : List Nat) (data : List α) : List α :=
  (indicesN shape.reverse).map fun i => data.getD (ravelN shape i.reverse) default

/-- Shape of `np.atleast_2d(a)`; the C order elements are the same. -/
def atleast2dShape : List Nat → List Nat
  | [] => [1, 1]
  | [n] => [1, n]
  | s => s

/-- Shape of `np.atleast_1d(a)`. -/
def atleast1dShape : List Nat → List Nat
  | [] => [1]
  | s => s

/-- `shape[-1] *= k` on a non-empty shape. -/
def mulLast (k : Nat) : List Nat → List Nat
  | [] => []
  | [n] => [n * k]
  | d :: r => d :: mulLast k r

/-- `shape[-1] //= k` on a non-empty shape. -/
def divLast (k : Nat) : List Nat → List Nat
  | [] => []
  | [n] => [n / k]
  | d :: r => d :: divLast k r

/-- Cut a flat list into consecutive chunks of `k` elements, `cnt` of them (a view with a wider dtype). -/
def chunksN {α : Type} (k : Nat) : Nat → List α → List (List α)
  | 0, _ => []
  | cnt + 1, l => l.take k :: chunksN k cnt (l.drop k)

end HS
