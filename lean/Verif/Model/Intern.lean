import Verif.Model.Basic
/-!
Model of the interning of log strings: core/cu29_log_derive/src/index.rs (run by the macros, at
compile time, by any number of compiler processes) and core/cu29_intern_strs/src/lib.rs (reading
the table back).  The store (rkv on LMDB, external) is two maps and a counter; a write transaction
is atomic and one at a time; a read sees the last committed state.
-/
namespace Verif
namespace Intern

/-- The three stores used (index.rs:47-66): the counter, `index_to_string`, `string_to_index`, as
their entries, the most recent first. -/
structure Store where
  counter : Nat
  toString : List (Nat × String)
  toIndex : List (String × Nat)
  deriving DecidableEq, Repr

def Store.empty : Store := ⟨0, [], []⟩

/-- `string_to_index.get` (index.rs:76): the last index put for this string. -/
def lookupIndex (l : List (String × Nat)) (s : String) : Option Nat :=
  match l with
  | [] => none
  | (t, i) :: l => if t = s then some i else lookupIndex l s

/-- Strings the store accepts as keys: LMDB refuses empty keys and keys of more than 511 bytes; the
code unwraps the error (index.rs:91-93). -/
def keyOk (s : String) : Bool := 0 < s.utf8ByteSize && s.utf8ByteSize ≤ 511

/-- The write transaction of `intern_string` (index.rs:84-94, get_next_index 109-121).  The counter
is read and written as `u32`. -/
def Store.insert (st : Store) (s : String) : Rs (Store × Nat) :=
  let current := st.counter % 4294967296
  if 4294967296 ≤ current + 1 then .panic
  else if !keyOk s then .panic
  else .ok (⟨current + 1, (current + 1, s) :: st.toString, (s, current + 1) :: st.toIndex⟩,
    current + 1)

/-- `intern_string` (index.rs:68-101), when nobody else writes in between. -/
def Store.intern (st : Store) (s : String) : Rs (Store × Nat) :=
  match lookupIndex st.toIndex s with
  | some i => .ok (st, i % 4294967296)
  | none => st.insert s

/-- Several compilers: each is idle or has found its string missing and is about to write. -/
structure World where
  store : Store
  waiting : List (Option String)
  deriving DecidableEq, Repr

/-- What a compiler process does next: look its string up (index.rs:73-83), or write the one it did
not find (index.rs:84-94). -/
inductive Step where
  | lookup (p : Nat) (s : String)
  | write (p : Nat)

/-- One step; the result, when `intern_string` returns, is the string and its index.  A process
whose write fails panics, without effect on the store. -/
def World.step (w : World) : Step → World × Option (String × Nat)
  | .lookup p s =>
    match w.waiting[p]? with
    | some none =>
      match lookupIndex w.store.toIndex s with
      | some i => (w, some (s, i % 4294967296))
      | none => ({ w with waiting := w.waiting.set p (some s) }, none)
    | _ => (w, none)
  | .write p =>
    match w.waiting[p]? with
    | some (some s) =>
      match w.store.insert s with
      | .panic => ({ w with waiting := w.waiting.set p none }, none)
      | .ok (st, i) => (⟨st, w.waiting.set p none⟩, some (s, i))
    | _ => (w, none)

/-- The results of a schedule of steps, in order. -/
def World.run (w : World) : List Step → World × List (String × Nat)
  | [] => (w, [])
  | a :: as =>
    let (w1, r) := w.step a
    let (w2, rs) := w1.run as
    (w2, r.toList ++ rs)

/-- `Vec::resize(n + 1, "")` when too short, then `all_strings[n] = s`
(cu29_intern_strs/src/lib.rs:28-32). -/
def putAt (l : List String) (n : Nat) (s : String) : List String :=
  (if l.length ≤ n then l ++ List.replicate (n + 1 - l.length) "" else l).set n s

/-- `read_interned_strings` (cu29_intern_strs/src/lib.rs:10-36): the entries in the order of the
iteration.  Reading is in the order of the keys; the theorems hold for any order, so it is an
argument here. -/
def readTable (entries : List (Nat × String)) : List String :=
  entries.foldl (fun l e => putAt l e.1 e.2) []

end Intern
end Verif
