import Verif.Model.Base
/-! # Specification vocabulary for arbitrary input bytes (C07) -/
namespace Scouter.Spec

/-- Somewhere in the input there is a long-length prefix whose length field is negative as a signed number:
byte 255 followed by a big-endian 16-bit field with the top bit set, or byte 254 followed by a 32-bit one. -/
def HasNegativeLength (s : Bytes) : Prop :=
  ∃ pre post, s = pre ++ post ∧
    ((∃ a b r, post = 255#8 :: a :: b :: r ∧ 128 ≤ a.toNat) ∨
     (∃ a b c d r, post = 254#8 :: a :: b :: c :: d :: r ∧ 128 ≤ a.toNat))

end Scouter.Spec
