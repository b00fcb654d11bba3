import Verif.Spec.UnifiedLogConc
/-!
Vocabulary of C81: logs with several streams of a type at the same time.
-/
namespace Verif
namespace ULog

/-- The histories: entry types other than the two reserved ones, section sizes that can be used, objects that fit in a
section of their stream.  Any number of streams of a type at a time. -/
def SharedOk (page slabSize : Nat) : List (Option (EntryType × Nat)) → List LogOp → Prop
  | _, [] => True
  | live, .openStream t n :: ops =>
    t ≠ .empty ∧ t ≠ .lastEntry ∧ SizeOk page slabSize n ∧ SharedOk page slabSize (live ++ [some (t, n)]) ops
  | live, .log i obj :: ops =>
    (∀ t n, live[i]? = some (some (t, n)) → 15 + obj.flatten.length ≤ n) ∧ SharedOk page slabSize live ops
  | live, .drop i :: ops => SharedOk page slabSize (live.set i none) ops

/-- The types of the streams, in the order in which they are opened. -/
def openedTypes : List LogOp → List EntryType
  | [] => []
  | .openStream t _ :: ops => t :: openedTypes ops
  | .log _ _ :: ops => openedTypes ops
  | .drop _ :: ops => openedTypes ops

/-- The objects logged on the `i`-th stream opened, in order; `live` are the streams at the beginning. -/
def loggedOn (i : Nat) : List (Option (EntryType × Nat)) → List LogOp → List Bytes
  | _, [] => []
  | live, .openStream t n :: ops => loggedOn i (live ++ [some (t, n)]) ops
  | live, .log j obj :: ops =>
    (match live[j]? with
      | some (some _) => if j = i then [obj.flatten] else []
      | _ => []) ++ loggedOn i live ops
  | live, .drop j :: ops => loggedOn i (live.set j none) ops

/-- What a section of a log holds: objects of one stream. -/
structure Portion where
  stream : Nat
  objs : List Bytes
  deriving DecidableEq, Repr

/-- The objects of a stream in a list of portions. -/
def portionsOf (i : Nat) (ps : List Portion) : List Bytes := ((ps.filter (·.stream == i)).map Portion.objs).flatten

/-- The contents of the sections of a type; `types` are the types of the streams. -/
def sectionsOf (types : List EntryType) (t : EntryType) (ps : List Portion) : List Bytes :=
  (ps.filter (fun p => types[p.stream]? == some t)).map (·.objs.flatten)

end ULog
end Verif
