import Verif.Model.GrpcCodec
import Verif.Props.Round
/-!
# C67: the codec for gRPC
-/
namespace Verif.Props
open Verif.Spec Verif.Model Verif.Lemmas

variable {env : GoEnv} {S : Schema}

/-- C67: the codec writes what protobuf prescribes (up to oneofs set to a default value, see C37), under the name that gRPC uses for protobuf. -/
theorem C67_encoding (hI : Implements env S) (hW : S.WF) (id : Nat) (v : Val) (hv : Typed S id v) :
    codecName = "proto" ∧
    match encode S false 1000 id v with
    | some bs => bs.length < 2 ^ 64 → codecMarshal env (.ptr id (some v)) = .ok bs
    | none => codecMarshal env (.ptr id (some v)) = .error .maxDepth :=
  ⟨rfl, C37_encoding hI hW id v hv⟩

/-- C67 (partial): what the codec writes, it reads back.  Missing: as for C01, oneofs set to a default value and messages nested deeper than 500. -/
theorem C67_roundtrip_partial (hI : Implements env S) (hW : S.WF) (id : Nat) (v : Val) (hv : Typed S id v)
    (hm : ∀ id' v', Reach S id v id' v' → MembersShown S id' v')
    (hu : ∀ id' v', Reach S id v id' v' → UnknownOK S id' v')
    (hn : ¬ Nested S 500 id v) (hl : ∀ bs, encode S false 1000 id v = some bs → bs.length < 2 ^ 64) :
    ∃ bs w, codecMarshal env (.ptr id (some v)) = .ok bs ∧ codecUnmarshal env bs (.ptr id (some (S id).zero)) = .ok w ∧ Same S false id v w :=
  C01_roundtrip_partial hI hW id v hv hm hu hn hl

/-- Non-vacuity: a message using every kind of field. -/
example : ∃ bs w, codecMarshal Sample.env (.ptr 0 (some Sample.val)) = .ok bs ∧
    codecUnmarshal Sample.env bs (.ptr 0 (some (Sample.schema 0).zero)) = .ok w ∧ Same Sample.schema false 0 Sample.val w :=
  C67_roundtrip_partial Sample.env_implements Sample.schema_wf 0 _ Sample.val_typed Sample.val_shown
    Sample.val_unknown (fun h => Sample.val_shallow (nested_le h 2 (by decide))) Sample.val_len

end Verif.Props
