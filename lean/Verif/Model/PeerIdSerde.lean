/-
Model of /repo/keypair/src/lib.rs:43-64 (`peerid_serializer`): peer ids are serialised as texts.
-/
import Verif.Model.PeerId

namespace TG.PeerId

/-- `peerid_serializer::serialize` (keypair/src/lib.rs:48-53): the text handed to the serializer. -/
def serialize (p : PeerId) : Str := p.toBase58

/-- `peerid_serializer::deserialize` (keypair/src/lib.rs:55-63), given the text that the deserializer reads. -/
def deserialize (s : Str) : Option PeerId := fromStr s

end TG.PeerId
