import Verif.Model.Api
/-!
# The error values that a caller sees

The decoder model reports a `Fault`.  Here the faults are mapped to the Go error values that
`Unmarshal` returns, so that properties can speak of `io.ErrUnexpectedEOF`.  Not represented: the
texts of the formatted errors (internal/prutal/errors.go:33-35, decoder.go:316, 417).
-/
namespace Verif.Model

/-- The error values of the package: `io.ErrUnexpectedEOF`, the sentinels of
internal/protowire/wire.go:57-63, internal/prutal/errors.go:29-31 and internal/prutal/prutal.go:27,
and one value for each family of formatted errors (internal/prutal/errors.go:33-35;
decoder.go:316, 417; the errors of the description of a type). -/
inductive GoError
  | unexpectedEOF | fieldNumber | overflow | reserved | endGroup | parse
  | maxDepth | notPointer | wireTypeNotMatch | mapFieldNum | badType
  deriving DecidableEq, Repr

/-- internal/protowire/wire.go:67-85 (`ParseError`) on the negative codes. -/
def parseError : PErr → GoError
  | .truncated => .unexpectedEOF
  | .fieldNumber => .fieldNumber
  | .overflow => .overflow
  | .reserved => .reserved
  | .endGroup => .endGroup
  | .recursionDepth => .parse

/-- The Go error of a fault; `none` for a panic or for undefined behaviour.  A packed block or a
boolean of a map entry that ends too early gives `io.ErrUnexpectedEOF` as well
(internal/wire/decoder_packed.go:58, 78, 98; internal/wire/decoder_map.go:171). -/
def Fault.goError : Fault → Option GoError
  | .parse e => some (parseError e)
  | .eof => some .unexpectedEOF
  | .maxDepth => some .maxDepth
  | .wireType => some .wireTypeNotMatch
  | .mapKV => some .mapFieldNum
  | .badType => some .badType
  | .notPointer => some .notPointer
  | .panic => none
  | .ub => none

end Verif.Model
