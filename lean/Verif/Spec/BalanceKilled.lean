import Verif.Model.BalanceBot
/-! Vocabulary of C117. -/
namespace Verif
namespace Bot

/-- A text whose length fits the field it is written in. -/
structure Short (s : String) : Prop where
  lt : s.utf8ByteSize < 18446744073709551616

end Bot
end Verif
