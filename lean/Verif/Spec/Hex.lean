import Verif.Model.Basic
/-! # Lower-case hexadecimal rendering -/
namespace Afs.Spec

def hexAlphabet : Bytes := b! "0123456789abcdef"

/-- Two lower-case hexadecimal digits per byte, high nibble first. -/
def hex (h : Bytes) : Bytes :=
  h.flatMap fun b => [hexAlphabet.getD (b.toNat / 16) 0, hexAlphabet.getD (b.toNat % 16) 0]

end Afs.Spec
