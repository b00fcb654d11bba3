import Verif.Model.Basic
import Verif.Model.Bincode
/-!
The structure-of-arrays container generated by `#[derive(Soa)]` (core/cu29_soa_derive/src/lib.rs).
A record is the list of the values of its fields; the values of all the fields live in one type
`V`.  A field array `[T; N]` is a list; indexing past its end is a panic.
-/
namespace Verif
namespace Soa
open Bincode
variable {V σ : Type}

/-- The generated structure (lib.rs:181-185). -/
structure Soa (V : Type) where
  len : Nat
  cols : List (List V)
  deriving DecidableEq, Repr

/-- `new(default)` with capacity `n` (lib.rs:188-193). -/
def Soa.new (n : Nat) (dflt : List V) : Soa V := ⟨0, dflt.map (List.replicate n)⟩

/-- `self.field[i] = value.field.clone()` for all the fields (lib.rs:204, 224).  Each field array is
indexed, which panics out of bounds. -/
def writeRow (i : Nat) : List (List V) → List V → Rs (List (List V))
  | c :: cs, v :: vs =>
    if i < c.length then
      match writeRow i cs vs with
      | .panic => .panic
      | .ok cs => .ok (c.set i v :: cs)
    else .panic
  | _, _ => .ok []

/-- `#( #field_names: self.#field_names[i].clone() )*` (lib.rs:217, 230). -/
def readRow (i : Nat) : List (List V) → Rs (List V)
  | [] => .ok []
  | c :: cs =>
    match c[i]?, readRow i cs with
    | some v, .ok vs => .ok (v :: vs)
    | _, _ => .panic

/-- `push` (lib.rs:202-209); `n` is the capacity. -/
def Soa.push (n : Nat) (s : Soa V) (r : List V) : Rs (Soa V) :=
  if s.len < n then
    match writeRow s.len s.cols r with
    | .panic => .panic
    | .ok cols => .ok ⟨s.len + 1, cols⟩
  else .panic

/-- `pop` (lib.rs:211-220). -/
def Soa.pop (s : Soa V) : Rs (Soa V × Option (List V)) :=
  if s.len = 0 then .ok (s, none)
  else
    match readRow (s.len - 1) s.cols with
    | .panic => .panic
    | .ok r => .ok (⟨s.len - 1, s.cols⟩, some r)

/-- `set` (lib.rs:222-225). -/
def Soa.set (s : Soa V) (i : Nat) (r : List V) : Rs (Soa V) :=
  if i < s.len then
    match writeRow i s.cols r with
    | .panic => .panic
    | .ok cols => .ok ⟨s.len, cols⟩
  else .panic

/-- `get` (lib.rs:227-232). -/
def Soa.get (s : Soa V) (i : Nat) : Rs (List V) :=
  if i < s.len then readRow i s.cols else .panic

/-- The loop of `apply` (lib.rs:239-245) from index `i`, `k` more times.  `f` is `FnMut`: it has a
state. -/
def applyFrom (f : σ → List V → σ × List V) : Nat → Nat → σ → List (List V) → Rs (σ × List (List V))
  | 0, _, st, cols => .ok (st, cols)
  | k + 1, i, st, cols =>
    match readRow i cols with
    | .panic => .panic
    | .ok r =>
      let q := f st r
      match writeRow i cols q.2 with
      | .panic => .panic
      | .ok cols => applyFrom f k (i + 1) q.1 cols

/-- `apply` (lib.rs:234-246). -/
def Soa.apply (f : σ → List V → σ × List V) (st : σ) (s : Soa V) : Rs (σ × Soa V) :=
  match applyFrom f s.len 0 st s.cols with
  | .panic => .panic
  | .ok (st, cols) => .ok (st, ⟨s.len, cols⟩)

/-- The iterator (lib.rs:136-168) from index `i`, `k` calls of `next` that return an item. -/
def iterFrom (s : Soa V) : Nat → Nat → Rs (List (List V))
  | 0, _ => .ok []
  | k + 1, i =>
    if i < s.len then
      match s.get i, iterFrom s k (i + 1) with
      | .ok r, .ok rs => .ok (r :: rs)
      | _, _ => .panic
    else .ok []

/-- Collecting the iterator: one call more than there can be items. -/
def Soa.iter (s : Soa V) : Rs (List (List V)) := iterFrom s (s.len + 1) 0

/-- `x_mut()[i] = v` for the `f`-th field (lib.rs:256-258): any index below the capacity. -/
def Soa.setField (s : Soa V) (f i : Nat) (v : V) : Rs (Soa V) :=
  match s.cols[f]? with
  | none => .panic
  | some c => if i < c.length then .ok ⟨s.len, s.cols.set f (c.set i v)⟩ else .panic

/-- `self.field[..self.len].encode` for all the fields (lib.rs:274): a slice is encoded with its
length.  Slicing past the end panics. -/
def encCols (len : Nat) : List (Codec V) → List (List V) → Rs Bytes
  | k :: ks, c :: cs =>
    if len ≤ c.length then
      match encCols len ks cs with
      | .panic => .panic
      | .ok bs => .ok (@enc _ (@instCodecList V k) (c.take len) ++ bs)
    else .panic
  | _, _ => .ok []

/-- `Encode` (lib.rs:271-277). -/
def Soa.encode (ks : List (Codec V)) (s : Soa V) : Rs Bytes :=
  match encCols s.len ks s.cols with
  | .panic => .panic
  | .ok bs => .ok (enc (UInt64.ofNat s.len) ++ bs)

/-- The loop over one field of `Decode` (lib.rs:284-286), from index `i`, `k` more times: decode an
element and store it, which panics past the capacity. -/
def decCol (d : Codec V) : Nat → Nat → List V → Dec (Rs (List V))
  | 0, _, c => pure (.ok c)
  | k + 1, i, c => do
    let v ← d.dec
    if i < c.length then decCol d k (i + 1) (c.set i v) else pure .panic

/-- The fields one after the other (lib.rs:283-287). -/
def decCols (len : Nat) : List (Codec V) → List (List V) → Dec (Rs (List (List V)))
  | k :: ks, c :: cs => do
    let r ← decCol k len 0 c
    match r with
    | .panic => pure .panic
    | .ok c => do
      let rs ← decCols len ks cs
      match rs with
      | .panic => pure .panic
      | .ok cs => pure (.ok (c :: cs))
  | _, _ => pure (.ok [])

/-- `Decode` (lib.rs:279-290) into a container of capacity `n` filled with the default record. -/
def Soa.decode (n : Nat) (ks : List (Codec V)) (dflt : List V) : Dec (Rs (Soa V)) := do
  let len ← (dec : Dec UInt64)
  let r ← decCols len.toNat ks (Soa.new n dflt).cols
  match r with
  | .panic => pure .panic
  | .ok cols => pure (.ok ⟨len.toNat, cols⟩)

end Soa
end Verif
