import Verif.Spec.UnifiedLog
/-!
The effects of the operations of the write side on the slab files, one by one, for crashes in the
middle of an operation (core/cu29_unifiedlog/src/lib.rs).

The process can stop between two effects, and in the middle of storing bytes in the memory map: any
part of the bytes of that store may have reached the map.  Effects are issued in program order and
what reached the map survives the process; the loss of the machine's page cache is not modelled.
`set_len` and the creation of a file are atomic.
-/
namespace Verif
namespace ULog
open Bincode

inductive Effect where
  /-- bytes stored in the map of a slab -/
  | store (slab off : Nat) (d : Bytes)
  /-- `File::set_len` -/
  | setLen (slab n : Nat)
  /-- a new, empty slab file -/
  | create
  deriving DecidableEq, Repr

/-- What an effect does when it completes. -/
def Effect.apply (files : List Bytes) : Effect → List Bytes
  | .store k off d => files.modify k (fun f => writeAt f off d)
  | .setLen k n => files.modify k (fun f => ULog.setLen f n)
  | .create => files ++ [[]]

/-- `c` is `a` with some of the bytes it has in `b`. -/
def TornBytes (a b c : Bytes) : Prop :=
  c.length = a.length ∧ ∀ i : Nat, c[i]? = a[i]? ∨ c[i]? = b[i]?

/-- The files found if the process stops in the middle of an effect. -/
def Effect.Torn : Effect → List Bytes → List Bytes → Prop
  | .store k off d, files, files' => ∃ f', files' = files.modify k (fun _ => f') ∧
      ∀ f, files[k]? = some f → TornBytes f (writeAt f off d) f'
  | _, files, files' => files' = files

/-- The files found if the process stops during a sequence of effects, or at its end. -/
inductive CrashDuring : List Bytes → List Effect → List Bytes → Prop
  | done {files : List Bytes} : CrashDuring files [] files
  | torn {files files' : List Bytes} {e : Effect} {es : List Effect} (h : e.Torn files files') :
      CrashDuring files (e :: es) files'
  | next {files files' : List Bytes} {e : Effect} {es : List Effect}
      (h : CrashDuring (e.apply files) es files') : CrashDuring files (e :: es) files'

/-- The slabs dropped by `garbage_collect_backslabs` (lib.rs:505-508, 235-252). -/
def gcEffects (lg : Logger) : List Effect :=
  (lg.back.filter (fun s => s.inFlight.isEmpty)).map (fun s => .setLen s.suffix s.cgp)

/-- The header of a new section (lib.rs:325-367): in the current slab if the section fits, else in a
new one (lib.rs:511-541, 450-469: the file is created, then extended). -/
def headerEffects (lg : Logger) (t : EntryType) (req : Nat) : List Effect :=
  let hd := mkHeader t (UInt32.ofNat (align lg.pageSize req)) 0
  let pos := align lg.pageSize lg.front.cgp
  if lg.slabSize < pos + align lg.pageSize req then
    [.create, .setLen (lg.front.suffix + 1) lg.slabSize, .store (lg.front.suffix + 1) 0 (enc hd)]
  else [.store lg.front.suffix pos (enc hd)]

/-- The effects of an operation on sections. -/
def opEffects (s : SecSys) : SecOp → List Effect
  | .add t req => gcEffects s.lg ++ headerEffects s.lg t req
  | .write i obj =>
    match s.issued[i]? with
    | some ⟨h, true, _⟩ =>
      [.store h.slab (h.off + maxHeader + h.used) (fitChunks (h.req - (maxHeader + h.used)) obj).1]
    | _ => []
  | .close i =>
    match s.issued[i]? with
    | some ⟨h, true, _⟩ => [.store h.slab h.off (enc h.updateHeader.header)]
    | _ => []

/-- What a reader gets from a section after a crash: the data of a closed one, a part of the data of
an open one. -/
def Issued.left (e : Issued) (d : Bytes) : Prop := d <+: e.data ∧ (e.isOpen = false → d = e.data)

end ULog
end Verif
