import Verif.Model.MspResponses
/-!
Specification of the responses: what it means for structures to be packed properly.
-/
namespace Verif
namespace Msp
variable {S : RespKind → Type}

/-- Each structure packs to bytes of its size, not 0, that unpack to it. -/
def Packing.Proper (P : Packing S) : Prop :=
  ∀ k s, ∃ b, P.pack k s = some b ∧ b.length = P.size k ∧ 0 < P.size k ∧ P.unpack k b = some s

/-- The two kinds that are asked by a command that another kind answers. -/
def Shadowed (k : RespKind) : Prop := k = .dataFlashRead ∨ k = .setGetOsdConfig

end Msp
end Verif
