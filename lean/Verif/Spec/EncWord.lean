import Verif.Spec.Types
/-!
# The words of struct tags that name encodings
-/
namespace Verif.Spec
open Verif.Model (TagType)

/-- Encoding words. -/
inductive EncWord : List Char → TagType → Prop
  | varint : EncWord "varint".toList .varint
  | zigzag32 : EncWord "zigzag32".toList .zigzag32
  | zigzag64 : EncWord "zigzag64".toList .zigzag64
  | fixed32 : EncWord "fixed32".toList .fixed32
  | fixed64 : EncWord "fixed64".toList .fixed64
  | bytes : EncWord "bytes".toList .bytes

end Verif.Spec
