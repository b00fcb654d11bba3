import Verif.Spec.Killed
import Verif.Proofs.Bincode
/-! Decoders that read their input from the front. -/
namespace Verif
open Bincode Clock

namespace Dec.Sequential
variable {α β : Type}

theorem pure (a : α) : Sequential (Pure.pure a : Dec α) := by
  intro x y r b h
  cases h
  rfl

theorem fail (e : DecodeError) : Sequential (Dec.fail e : Dec α) := by
  intro x y r b h
  cases h

theorem bind {d : Dec α} {f : α → Dec β} (h : Sequential d) (hf : ∀ a, Sequential (f a)) :
    Sequential (d >>= f) := by
  intro x y r b hb
  cases hd : d x with
  | error e =>
    have : (d >>= f) x = .error e := by show Dec.andThen d f x = _; simp [Dec.andThen, hd]
    rw [this] at hb; cases hb
  | ok p =>
    obtain ⟨a, r'⟩ := p
    rw [Dec.bind_ok hd] at hb
    rw [Dec.bind_ok (h x y r' a hd)]
    exact hf a _ _ _ _ hb

theorem ite {p : Prop} [Decidable p] {d d' : Dec α} (h : Sequential d) (h' : Sequential d') :
    Sequential (if p then d else d') := by
  split
  · exact h
  · exact h'

theorem byte : Sequential Bincode.byte := by
  intro x y r a h
  cases x with
  | nil => cases h
  | cons b x => cases h; rfl

theorem takeBytes (n : Nat) : Sequential (Bincode.takeBytes n) := by
  intro x y r a h
  unfold Bincode.takeBytes at h ⊢
  split at h
  · cases h
  · cases h
    rw [if_neg (by simp; omega), List.take_append_of_le_length (by omega),
      List.drop_append_of_le_length (by omega)]

theorem fixed (k : Nat) : Sequential (Bincode.fixed k) := (takeBytes k).bind fun _ => .pure _

theorem var (w : Nat) : Sequential (decVar w) :=
  byte.bind fun _ => .ite (.pure _) (.ite (fixed _) (.ite (fixed _) (.ite (fixed _) (.fail _))))

theorem u8 : Sequential (dec : Dec UInt8) := byte
theorem u16 : Sequential (dec : Dec UInt16) := (var 2).bind fun _ => .pure _
theorem u32 : Sequential (dec : Dec UInt32) := (var 4).bind fun _ => .pure _
theorem u64 : Sequential (dec : Dec UInt64) := (var 8).bind fun _ => .pure _

theorem decN {d : Dec α} (h : Sequential d) (n : Nat) : Sequential (Bincode.decN d n) := by
  induction n with
  | zero => exact .pure _
  | succ n ih => exact h.bind fun _ => ih.bind fun _ => .pure _

theorem list [Codec α] (h : Sequential (dec : Dec α)) : Sequential (dec : Dec (List α)) :=
  (var 8).bind fun n => h.decN n

theorem duration : Sequential (dec : Dec CuDuration) := u64.bind fun _ => .pure _
theorem optionTime : Sequential (dec : Dec OptionCuTime) := duration.bind fun _ => .pure _
theorem range : Sequential (dec : Dec CuTimeRange) := duration.bind fun _ => duration.bind fun _ => .pure _
theorem partialRange : Sequential (dec : Dec PartialCuTimeRange) :=
  optionTime.bind fun _ => optionTime.bind fun _ => .pure _
theorem tov : Sequential (dec : Dec Tov) :=
  (var 4).bind fun _ => .ite (.pure _) (.ite (duration.bind fun _ => .pure _)
    (.ite (range.bind fun _ => .pure _) (.fail _)))

theorem status : Sequential Wire.decStatus :=
  (list u8).bind fun b => by
    cases bytesToStr? b with
    | none => exact .fail _
    | some s => exact .pure _

theorem meta_ : Sequential Wire.decMeta :=
  partialRange.bind fun _ => tov.bind fun _ => status.bind fun _ => .pure _

variable {P : Type}

theorem msg {c : Codec P} (h : Sequential c.dec) : Sequential (Wire.decMsg c) :=
  byte.bind fun _ => .ite (meta_.bind fun _ => .pure _)
    (.ite (h.bind fun _ => meta_.bind fun _ => .pure _) (.fail _))

theorem msgs {slots : List (Codec P)} (h : ∀ c ∈ slots, Sequential c.dec) :
    Sequential (Wire.decMsgs slots) := by
  induction slots with
  | nil => exact .pure _
  | cons c slots ih =>
    exact (msg (h c (by simp))).bind fun _ => (ih (fun c hc => h c (by simp [hc]))).bind fun _ => .pure _

theorem state : Sequential Wire.decState :=
  (var 4).bind fun _ => .ite (.pure _) (.ite (.pure _) (.ite (.pure _) (.ite (.pure _)
    (.ite (.pure _) (.fail _)))))

theorem cl {slots : List (Codec P)} (h : ∀ c ∈ slots, Sequential c.dec) :
    Sequential (Wire.clCodec slots).dec :=
  u32.bind fun _ => state.bind fun _ => (msgs h).bind fun _ => .pure _

theorem entryType : Sequential (dec : Dec ULog.EntryType) :=
  u32.bind fun _ => .ite (.pure _) (.ite (.pure _) (.ite (.pure _) (.ite (.pure _) (.fail _))))

theorem header : Sequential (dec : Dec ULog.SectionHeader) :=
  u8.bind fun _ => u8.bind fun _ => entryType.bind fun _ => u32.bind fun _ => u32.bind fun _ => .pure _

end Dec.Sequential

/-- A decoder reading from the front fails on a part of an encoded value. -/
theorem dec_cut {α : Type} [Codec α] (hs : Dec.Sequential (dec : Dec α)) {a : α} (hr : RoundTrips a)
    {p q : Bytes} (hp : p ++ q = enc a) (hq : q ≠ []) : ∃ e, (dec : Dec α) p = .error e := by
  cases hd : (dec : Dec α) p with
  | error e => exact ⟨e, rfl⟩
  | ok x =>
    obtain ⟨b, r⟩ := x
    have h1 := hs p q r b hd
    have h2 := hr []
    rw [List.append_nil] at h2
    rw [hp, h2] at h1
    have := (Prod.mk.inj (Except.ok.inj h1)).2
    have := (List.append_eq_nil_iff.1 this.symm).2
    exact absurd this hq

end Verif
