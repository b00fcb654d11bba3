import Verif.Proofs.Sequential
import Verif.Model.LogEntry
/-! Decoders whose answer, unless it is that the input ended, does not depend on what follows. -/
namespace Verif
open Bincode Clock

/-- More input changes nothing but the answer that the input ended. -/
def Dec.Prompt {α : Type} (d : Dec α) : Prop :=
  ∀ x y : Bytes, (∀ a r, d x = .ok (a, r) → d (x ++ y) = .ok (a, r ++ y)) ∧
    (∀ e, d x = .error e → e ≠ .unexpectedEnd → d (x ++ y) = .error e)

namespace Dec.Prompt
variable {α β : Type}

theorem sequential {d : Dec α} (h : Prompt d) : Sequential d := fun x y r a => (h x y).1 a r

theorem pure (a : α) : Prompt (Pure.pure a : Dec α) := by
  intro x y
  exact ⟨fun b r h => by cases h; rfl, fun e h => by cases h⟩

theorem fail (e : DecodeError) : Prompt (Dec.fail e : Dec α) := by
  intro x y
  exact ⟨fun b r h => (by cases h), fun e' h _ => by cases h; rfl⟩

theorem bind {d : Dec α} {f : α → Dec β} (h : Prompt d) (hf : ∀ a, Prompt (f a)) : Prompt (d >>= f) := by
  intro x y
  cases hd : d x with
  | error e =>
    have e1 : ∀ z, d z = .error e → (d >>= f) z = .error e := by
      intro z hz; show Dec.andThen d f z = _; simp [Dec.andThen, hz]
    refine ⟨fun b r hb => ?_, fun e' hb hne => ?_⟩
    · rw [e1 x hd] at hb; cases hb
    · rw [e1 x hd] at hb
      cases hb
      exact e1 _ ((h x y).2 e hd hne)
  | ok p =>
    obtain ⟨a, r'⟩ := p
    rw [Dec.bind_ok hd, Dec.bind_ok ((h x y).1 a r' hd)]
    exact hf a r' y

theorem ite {p : Prop} [Decidable p] {d d' : Dec α} (h : Prompt d) (h' : Prompt d') :
    Prompt (if p then d else d') := by
  split
  · exact h
  · exact h'

theorem byte : Prompt Bincode.byte := by
  intro x y
  cases x with
  | nil => exact ⟨fun a r h => (by cases h), fun e h hne => absurd (by cases h; rfl) hne⟩
  | cons b x => exact ⟨fun a r h => by cases h; rfl, fun e h => (by cases h)⟩

theorem takeBytes (n : Nat) : Prompt (Bincode.takeBytes n) := by
  intro x y
  refine ⟨fun a r h => Dec.Sequential.takeBytes n x y r a h, fun e h hne => ?_⟩
  unfold Bincode.takeBytes at h
  split at h
  · cases h; exact absurd rfl hne
  · cases h

theorem fixed (k : Nat) : Prompt (Bincode.fixed k) := (takeBytes k).bind fun _ => .pure _

theorem var (w : Nat) : Prompt (decVar w) :=
  byte.bind fun _ => .ite (.pure _) (.ite (fixed _) (.ite (fixed _) (.ite (fixed _) (.fail _))))

theorem u8 : Prompt (dec : Dec UInt8) := byte
theorem u16 : Prompt (dec : Dec UInt16) := (var 2).bind fun _ => .pure _
theorem u32 : Prompt (dec : Dec UInt32) := (var 4).bind fun _ => .pure _
theorem u64 : Prompt (dec : Dec UInt64) := (var 8).bind fun _ => .pure _
theorem i8 : Prompt (dec : Dec Int8) := byte.bind fun _ => .pure _
theorem i16 : Prompt (dec : Dec Int16) := (var 2).bind fun _ => .pure _
theorem i32 : Prompt (dec : Dec Int32) := (var 4).bind fun _ => .pure _
theorem i64 : Prompt (dec : Dec Int64) := (var 8).bind fun _ => .pure _
theorem f32 : Prompt (dec : Dec F32) := (fixed 4).bind fun _ => .pure _
theorem f64 : Prompt (dec : Dec F64) := (fixed 8).bind fun _ => .pure _
theorem bool : Prompt (dec : Dec Bool) :=
  byte.bind fun _ => .ite (.pure _) (.ite (.pure _) (.fail _))
theorem duration : Prompt (dec : Dec CuDuration) := u64.bind fun _ => .pure _

theorem string : Prompt (dec : Dec String) :=
  (var 8).bind fun n => (takeBytes n).bind fun b => by
    cases bytesToStr? b with
    | none => exact .fail _
    | some s => exact .pure _

theorem char : Prompt (dec : Dec Char) :=
  byte.bind fun b => .ite (.fail _) ((takeBytes _).bind fun r => by
    cases (⟨(b :: r).toArray⟩ : ByteArray).utf8DecodeChar? 0 with
    | none => exact .fail _
    | some c => exact .pure _)

theorem decN {d : Dec α} (h : Prompt d) (n : Nat) : Prompt (Bincode.decN d n) := by
  induction n with
  | zero => exact .pure _
  | succ n ih => exact h.bind fun _ => ih.bind fun _ => .pure _

theorem list [Codec α] (h : Prompt (dec : Dec α)) : Prompt (dec : Dec (List α)) :=
  (var 8).bind fun n => h.decN n

theorem decodeMap {d : Dec Value} (h : Prompt d) (n : Nat) : ∀ m, Prompt (Value.decodeMap d n m) := by
  induction n with
  | zero => exact fun _ => .pure _
  | succ n ih => exact fun m => h.bind fun _ => h.bind fun _ => ih _

theorem fuel : ∀ n, Prompt (Value.decodeFuel n)
  | 0 => .fail _
  | n + 1 => by
    have ih := fuel n
    unfold Value.decodeFuel
    exact byte.bind fun _ => .ite (bool.bind fun _ => .pure _) <| .ite (u8.bind fun _ => .pure _) <|
      .ite (u16.bind fun _ => .pure _) <| .ite (u32.bind fun _ => .pure _) <| .ite (u64.bind fun _ => .pure _) <|
      .ite (i8.bind fun _ => .pure _) <| .ite (i16.bind fun _ => .pure _) <| .ite (i32.bind fun _ => .pure _) <|
      .ite (i64.bind fun _ => .pure _) <| .ite (f32.bind fun _ => .pure _) <| .ite (f64.bind fun _ => .pure _) <|
      .ite (char.bind fun _ => .pure _) <| .ite (string.bind fun _ => .pure _) <| .ite (.pure _) <|
      .ite ((byte.bind fun _ => .ite (.pure _) (.ite (ih.bind fun _ => .pure _) (.fail _))).bind fun _ => .pure _) <|
      .ite (ih.bind fun _ => .pure _) <|
      .ite (((var 8).bind fun k => ih.decN k).bind fun _ => .pure _) <|
      .ite ((var 8).bind fun k => (decodeMap ih k _).bind fun _ => .pure _) <|
      .ite ((list u8).bind fun _ => .pure _) <| .ite (u64.bind fun _ => .pure _) (.fail _)

end Dec.Prompt

/-! ### The fuel of the decoder of values is enough -/

/-- Nothing is put back. -/
def Dec.Forward {α : Type} (d : Dec α) : Prop := ∀ x a r, d x = .ok (a, r) → r.length ≤ x.length

/-- Two decoders that do the same with inputs up to a length. -/
def Dec.Agree {α : Type} (n : Nat) (d d' : Dec α) : Prop := ∀ x : Bytes, x.length ≤ n → d x = d' x

namespace Dec
variable {α β : Type}

theorem Prompt.rest_le {d : Dec α} (h : Forward d) {x r : Bytes} {a : α} (hx : d x = .ok (a, r)) :
    r.length ≤ x.length := h x a r hx

namespace Forward

theorem pure (a : α) : Forward (Pure.pure a : Dec α) := by
  intro x b r h; cases h; exact Nat.le_refl _

theorem fail (e : DecodeError) : Forward (Dec.fail e : Dec α) := by
  intro x b r h; cases h

theorem bind {d : Dec α} {f : α → Dec β} (h : Forward d) (hf : ∀ a, Forward (f a)) : Forward (d >>= f) := by
  intro x b r hb
  cases hd : d x with
  | error e =>
    have : (d >>= f) x = .error e := by show Dec.andThen d f x = _; simp [Dec.andThen, hd]
    rw [this] at hb; cases hb
  | ok p =>
    obtain ⟨a, r'⟩ := p
    rw [Dec.bind_ok hd] at hb
    exact Nat.le_trans (hf a _ _ _ hb) (h _ _ _ hd)

theorem ite {p : Prop} [Decidable p] {d d' : Dec α} (h : Forward d) (h' : Forward d') :
    Forward (if p then d else d') := by
  split
  · exact h
  · exact h'

theorem byte : Forward Bincode.byte := by
  intro x a r h
  cases x with
  | nil => cases h
  | cons b x => cases h; simp

theorem takeBytes (n : Nat) : Forward (Bincode.takeBytes n) := by
  intro x a r h
  unfold Bincode.takeBytes at h
  split at h
  · cases h
  · cases h; simp

theorem fixed (k : Nat) : Forward (Bincode.fixed k) := (takeBytes k).bind fun _ => .pure _

theorem var (w : Nat) : Forward (decVar w) :=
  byte.bind fun _ => .ite (.pure _) (.ite (fixed _) (.ite (fixed _) (.ite (fixed _) (.fail _))))

theorem u8 : Forward (dec : Dec UInt8) := byte
theorem u16 : Forward (dec : Dec UInt16) := (var 2).bind fun _ => .pure _
theorem u32 : Forward (dec : Dec UInt32) := (var 4).bind fun _ => .pure _
theorem u64 : Forward (dec : Dec UInt64) := (var 8).bind fun _ => .pure _
theorem i8 : Forward (dec : Dec Int8) := byte.bind fun _ => .pure _
theorem i16 : Forward (dec : Dec Int16) := (var 2).bind fun _ => .pure _
theorem i32 : Forward (dec : Dec Int32) := (var 4).bind fun _ => .pure _
theorem i64 : Forward (dec : Dec Int64) := (var 8).bind fun _ => .pure _
theorem f32 : Forward (dec : Dec F32) := (fixed 4).bind fun _ => .pure _
theorem f64 : Forward (dec : Dec F64) := (fixed 8).bind fun _ => .pure _
theorem bool : Forward (dec : Dec Bool) :=
  byte.bind fun _ => .ite (.pure _) (.ite (.pure _) (.fail _))
theorem duration : Forward (dec : Dec CuDuration) := u64.bind fun _ => .pure _

theorem string : Forward (dec : Dec String) :=
  (var 8).bind fun n => (takeBytes n).bind fun b => by
    cases bytesToStr? b with
    | none => exact .fail _
    | some s => exact .pure _

theorem char : Forward (dec : Dec Char) :=
  byte.bind fun b => .ite (.fail _) ((takeBytes _).bind fun r => by
    cases (⟨(b :: r).toArray⟩ : ByteArray).utf8DecodeChar? 0 with
    | none => exact .fail _
    | some c => exact .pure _)

theorem decN {d : Dec α} (h : Forward d) (n : Nat) : Forward (Bincode.decN d n) := by
  induction n with
  | zero => exact .pure _
  | succ n ih => exact h.bind fun _ => ih.bind fun _ => .pure _

theorem list [Codec α] (h : Forward (dec : Dec α)) : Forward (dec : Dec (List α)) :=
  (var 8).bind fun n => h.decN n

theorem decodeMap {d : Dec Value} (h : Forward d) (n : Nat) : ∀ m, Forward (Value.decodeMap d n m) := by
  induction n with
  | zero => exact fun _ => .pure _
  | succ n ih => exact fun m => h.bind fun _ => h.bind fun _ => ih _

theorem fuel : ∀ n, Forward (Value.decodeFuel n)
  | 0 => .fail _
  | n + 1 => by
    have ih := fuel n
    unfold Value.decodeFuel
    exact byte.bind fun _ => .ite (bool.bind fun _ => .pure _) <| .ite (u8.bind fun _ => .pure _) <|
      .ite (u16.bind fun _ => .pure _) <| .ite (u32.bind fun _ => .pure _) <| .ite (u64.bind fun _ => .pure _) <|
      .ite (i8.bind fun _ => .pure _) <| .ite (i16.bind fun _ => .pure _) <| .ite (i32.bind fun _ => .pure _) <|
      .ite (i64.bind fun _ => .pure _) <| .ite (f32.bind fun _ => .pure _) <| .ite (f64.bind fun _ => .pure _) <|
      .ite (char.bind fun _ => .pure _) <| .ite (string.bind fun _ => .pure _) <| .ite (.pure _) <|
      .ite ((byte.bind fun _ => .ite (.pure _) (.ite (ih.bind fun _ => .pure _) (.fail _))).bind fun _ => .pure _) <|
      .ite (ih.bind fun _ => .pure _) <|
      .ite (((var 8).bind fun k => ih.decN k).bind fun _ => .pure _) <|
      .ite ((var 8).bind fun k => (decodeMap ih k _).bind fun _ => .pure _) <|
      .ite ((list u8).bind fun _ => .pure _) <| .ite (u64.bind fun _ => .pure _) (.fail _)

end Forward

namespace Agree
variable {n : Nat}

theorem refl (d : Dec α) : Agree n d d := fun _ _ => rfl

theorem bind {d d' : Dec α} {f f' : α → Dec β} (h : Agree n d d') (hf : Forward d) (hff : ∀ a, Agree n (f a) (f' a)) :
    Agree n (d >>= f) (d' >>= f') := by
  intro x hx
  show Dec.andThen d f x = Dec.andThen d' f' x
  unfold Dec.andThen
  rw [← h x hx]
  cases hd : d x with
  | error e => rfl
  | ok p =>
    have := hf x p.1 p.2 hd
    exact hff p.1 p.2 (by omega)

theorem ite {p : Prop} [Decidable p] {d d' e e' : Dec α} (h : Agree n d d') (h' : Agree n e e') :
    Agree n (if p then d else e) (if p then d' else e') := by
  split
  · exact h
  · exact h'

theorem decN {d d' : Dec α} (h : Agree n d d') (hf : Forward d) (k : Nat) :
    Agree n (Bincode.decN d k) (Bincode.decN d' k) := by
  induction k with
  | zero => exact .refl _
  | succ k ih => exact h.bind hf fun _ => ih.bind (hf.decN k) fun _ => .refl _

theorem decodeMap {d d' : Dec Value} (h : Agree n d d') (hf : Forward d) (k : Nat) :
    ∀ m, Agree n (Value.decodeMap d k m) (Value.decodeMap d' k m) := by
  induction k with
  | zero => exact fun _ => .refl _
  | succ k ih => exact fun m => h.bind hf fun _ => h.bind hf fun _ => ih _

/-- A byte that is read leaves less. -/
theorem byte_bind {f f' : UInt8 → Dec β} (h : ∀ b, Agree n (f b) (f' b)) :
    Agree (n + 1) (Bincode.byte >>= f) (Bincode.byte >>= f') := by
  intro x hx
  cases x with
  | nil => rfl
  | cons b x => exact h b x (by simpa using hx)

theorem fuel : ∀ k n m, k < n → k < m → Agree k (Value.decodeFuel n) (Value.decodeFuel m)
  | k, 0, _, h, _ => absurd h (Nat.not_lt_zero _)
  | k, _, 0, _, h => absurd h (Nat.not_lt_zero _)
  | 0, n + 1, m + 1, _, _ => by
    intro x hx
    cases x with
    | nil => rfl
    | cons b x => simp at hx
  | k + 1, n + 1, m + 1, hn, hm => by
    have ih := fuel k n m (by omega) (by omega)
    have hf := Forward.fuel n
    unfold Value.decodeFuel
    refine byte_bind fun _ => .ite (.refl _) <| .ite (.refl _) <| .ite (.refl _) <| .ite (.refl _) <| .ite (.refl _) <|
      .ite (.refl _) <| .ite (.refl _) <| .ite (.refl _) <| .ite (.refl _) <| .ite (.refl _) <| .ite (.refl _) <|
      .ite (.refl _) <| .ite (.refl _) <| .ite (.refl _) <| .ite ?_ <| .ite ?_ <| .ite ?_ <| .ite ?_ (.refl _)
    · refine bind ?_ ?_ fun _ => .refl _
      · exact bind (.refl _) .byte fun _ => .ite (.refl _) (.ite (ih.bind hf fun _ => .refl _) (.refl _))
      · exact Forward.byte.bind fun _ => .ite (.pure _) (.ite (hf.bind fun _ => .pure _) (.fail _))
    · exact ih.bind hf fun _ => .refl _
    · exact bind (bind (.refl _) (.var 8) fun j => ih.decN hf j) ((Forward.var 8).bind fun j => hf.decN j) fun _ => .refl _
    · exact bind (.refl _) (.var 8) fun j => (ih.decodeMap hf j []).bind (hf.decodeMap j []) fun _ => .refl _

end Agree

theorem Prompt.value : Prompt (dec : Dec Value) := by
  intro x y
  show (∀ a r, Value.decodeFuel (x.length + 1) x = .ok (a, r) → Value.decodeFuel ((x ++ y).length + 1) (x ++ y) = _) ∧
    (∀ e, Value.decodeFuel (x.length + 1) x = .error e → _ → Value.decodeFuel ((x ++ y).length + 1) (x ++ y) = _)
  rw [Agree.fuel x.length (x.length + 1) ((x ++ y).length + 1) (by omega) (by simp; omega) x (Nat.le_refl _)]
  exact Prompt.fuel _ x y

theorem Prompt.entry : Prompt (dec : Dec LogEntry) :=
  Prompt.u64.bind fun _ => Prompt.u32.bind fun _ => (Prompt.var 8).bind fun n => (Prompt.u32.decN n).bind fun _ =>
    (Prompt.var 8).bind fun m => (Prompt.value.decN m).bind fun _ => .pure _

end Dec

/-- On a part of an encoded value such a decoder finds the end of its input. -/
theorem dec_short {α : Type} [Codec α] (hs : Dec.Prompt (dec : Dec α)) {a : α} (hr : RoundTrips a)
    {p q : Bytes} (hp : p ++ q = enc a) (hq : q ≠ []) : (dec : Dec α) p = .error .unexpectedEnd := by
  obtain ⟨e, he⟩ := dec_cut hs.sequential hr hp hq
  by_cases hu : e = .unexpectedEnd
  · rw [he, hu]
  · have h1 := (hs p q).2 e he hu
    have h2 := hr []
    rw [List.append_nil] at h2
    rw [hp, h2] at h1
    cases h1

end Verif
