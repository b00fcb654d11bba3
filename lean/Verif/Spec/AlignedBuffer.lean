import Verif.Model.AlignedBuffer
/-!
What buffers are for: each is an array of its own.  An element nobody wrote yet has no known value.
-/
namespace Verif.AlignedBuffer.Spec
open AlignedBuffer

/-- The arrays in the order of their creation; `none` once dropped. -/
abbrev Arrays := List (Option (List (Option (List UInt8))))

/-- One operation on arrays; the result of a read is `some x`, where `x` is `none` if the element was not written.
`none`: the index is out of bounds. -/
def step (s : Arrays) : Op → Option (Arrays × Option (Option (List UInt8)))
  | .create n _ => some (s ++ [some (List.replicate n none)], none)
  | .write k i v =>
    match s[k]? with
    | some (some a) => if i < a.length then some (s.set k (some (a.set i (some v))), none) else none
    | _ => some (s, none)
  | .read k i =>
    match s[k]? with
    | some (some a) => (a[i]?).map fun x => (s, some x)
    | _ => some (s, none)
  | .drop k => some (s.set k none, none)

def run : Arrays → List Op → Option (Arrays × List (Option (List UInt8)))
  | s, [] => some (s, [])
  | s, o :: os =>
    match step s o with
    | none => none
    | some (s', r) => (run s' os).map fun q => (q.1, r.toList ++ q.2)

/-- What is read is what was written last, if anything was. -/
def Agrees (expected : Option (List UInt8)) (got : List UInt8) : Prop := ∀ v, expected = some v → got = v

/-- The contract of an allocator, for layouts with a size: the block is aligned and overlaps no block in use. -/
def Sound (al : Allocator) : Prop :=
  ∀ k live L a, 0 < L.size → al k live L = some a →
    L.align ∣ a ∧ ∀ b ∈ live, a + L.size ≤ b.1 ∨ b.1 + b.2 ≤ a

/-- Programs whose elements have the size of the type and whose buffers have a number of bytes, not zero, that
the machine can count. -/
def Sane (ty : Ty) : Op → Prop
  | .create n _ => 0 < n * ty.size ∧ n * ty.size < 2 ^ 64
  | .write _ _ v => v.length = ty.size
  | _ => True

end Verif.AlignedBuffer.Spec
