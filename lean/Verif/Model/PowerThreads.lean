import Verif.Model.PowerCut
import Verif.Model.UnifiedLogKillConc
/-!
The disk behind a log that several threads use (core/cu29_unifiedlog/src/lib.rs:55-134, 235-274, 291-317), for power
failures.  As in `Model/PowerCut`, the kernel writes bytes of the maps back at any time, and `durable` says whether a
range that `flush_until` asked for is on the disk when the action ends.
-/
namespace Verif
namespace ULog

/-- A history of actions of threads, the log after it and what is on the disk then. -/
inductive PoweredThreads (durable : Bool) (page slabSize : Nat) : List ConcOp → ConcSys → List Bytes → Prop
  | new {lg : Logger} (h : Logger.new slabSize page = .ok lg) :
      PoweredThreads durable page slabSize [] ⟨⟨lg, []⟩, fun _ => none⟩ [List.replicate slabSize 0]
  | act {ops : List ConcOp} {c c' : ConcSys} {disk : List Bytes} {op : ConcOp}
      (hs : PoweredThreads durable page slabSize ops c disk) (h : c.step op = .ok c') :
      PoweredThreads durable page slabSize (ops ++ [op]) c' (diskAfter durable c.sys.lg c'.sys.lg disk)
  | writeBack {ops : List ConcOp} {c : ConcSys} {disk disk' : List Bytes}
      (hs : PoweredThreads durable page slabSize ops c disk) (h : WrittenBack c.sys.lg.files disk disk') :
      PoweredThreads durable page slabSize ops c disk'

end ULog
end Verif
