import Verif.Model.Api
/-!
# Model of pkg/grpccodec/grpccodec.go
-/
namespace Verif.Model

/-- pkg/grpccodec/grpccodec.go:32-34 (`PrutalCodec.Marshal`). -/
def codecMarshal (env : GoEnv) (a : Arg) : Res Bytes := marshalAppend env [] a

/-- pkg/grpccodec/grpccodec.go:37-39 (`PrutalCodec.Unmarshal`). -/
def codecUnmarshal (env : GoEnv) (b : Bytes) (a : Arg) : Res Val := unmarshal env b a

/-- pkg/grpccodec/grpccodec.go:42-44 (`PrutalCodec.Name`). -/
def codecName : String := "proto"

end Verif.Model
