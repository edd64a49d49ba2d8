/-
The keys and signatures of the certificates in on_start.json, and that they are genuine by the standards.
-/
import Verif.Model.Shipped
import Verif.Model.Trust
import Verif.Spec.Ed25519

namespace TG.Shipped

/-- A key and the signature of the trust in it, as numbers. -/
structure Row where
  key : Nat
  sig : Nat

/-- The bytes of the key. -/
def Row.keyBytes (r : Row) : Bytes := Sha2.Params.wordBytes 32 r.key

/-- The bytes of the signature. -/
def Row.sigBytes (r : Row) : Bytes := Sha2.Params.wordBytes 64 r.sig

def rootRow : Row :=
  ⟨0xbddffd4c2c991646c6df3d3514e440debb6e8db38a74be4680071f98a9c5417a,
    0xe6e6c410e6044ff14d9a4b918bb36013fe00af0e0c68f5a1600ffd4bdf779e4db9dc207d21917b104805a779946745cfd66fe4a22ea90f3dc32d14fac02e190a⟩

def labelRow : Row :=
  ⟨0xa6f44a99daa110921468abb44e0c3df1cf72345e21e6f4dd8cf43441e71da60c,
    0x74624d8a11e96830322a8241cfd219da5cbd728ac39e28aa0c89015d1c6af8e6470880c8e2f590e2eb3438a2fa2c933f828eaedf466481f3fad9b61b76f21202⟩

def exampleRow : Row :=
  ⟨0x2fca35a68b45adf28b6687cbbd0fd6b62d4a922c4d7f3272d657d31f3ce400ef,
    0x5af0fe45aec75da0fa78386dd17b45f85b87fd4e8f04e76ce47673ea05d65af9b5e72c8bdbb3cb1a2cf687cd1e25987d43037c5286023e820db7784ed4d0380f⟩

def nodeRows : List Row := [
  ⟨0xf38c601b186acbea8dfb0572bb7fbe3f71cee64260216589dc2fdc9570f92ab9,
    0x2eefc885b767caf8867a48ed2eb087d8e8cc4b47734350baedb4ba76fd8d2955b8072a118c123201e5efcc97458a282e0bae9b58bdbad3575fb77f18c8c71101⟩,
  ⟨0xe2861bc9784fafbb3ead31c4f3cf40d02d8604c789965a71ca88b1c79dd4eb68,
    0x189dbcdc7d2c88dc736c98cee707ee4946764df96040778bf2ba0e4ee59f6b20f3fefb2d7c9015be164e88c8cfd4d0b6627a2d31225cb66cfecc44d8c53f6c06⟩,
  ⟨0x94096a2e1a2146ee6e08e0bc0a1dea9027a5c05857380ee3a408aebd2dd94eff,
    0xabc4122efd9a25757c2b3fadb72604541427af81775129ef39b8439171bc6d489071a97b90d12a77c49ed24f584763289659f6a0e99447926454f43d49d3da03⟩,
  ⟨0x6fd80bd306c27f18cccd7b692b586c59fab74cff8edbd18a773787efe87c2d18,
    0x5174874507967f8e2f12620e360f5ae1c266da3c8a4db25ebae68cafa94fa519e376b6fda9287617230f92057ee855d05801f3e37abffd4f1ba059882bb59c0e⟩,
  ⟨0x82d271788a95823897d2f55f654fddb4c25a0fb32d2a5f2738f83b351c08314b,
    0x8d45b7ef4009c203fd49e0a17127758d506fb6f7e935a728629ccb09939f420871805bcd3f8f284a7160c6061d370b3c82bd2e11c5e23dd9af8465cf70f31206⟩,
  ⟨0x5095eaaa5e3f8f95a28f58e620de5cf04ee570023a4ad7177dce5c1a0d64a179,
    0xba5ad483aec1b0b1bb4f8428a3e4528ac695c06fe735a6465e7b94da4ae3001cbd2a1efa6ff7e751e211fa72f92f194d8b9eea9927241d46fc2364d007e18705⟩,
  ⟨0x25c80503d04869a4ac440fc942537298ae1437c776d243516903aeaa82973623,
    0x7ef8630640a7a76c4a745192e0fa16fd8c161e0425b67a79e7109fdf829f06b5e083bd204007f638a516a681d61e47e69efdce859625fd67c5de4e382f737e0e⟩,
  ⟨0x3670da2e51bef1306b7d892407a15b8c3a2d0fbe835f5badb8a770e883abbf2d,
    0x69bb693e4de8129bfaa938f04d50910a603a37072e5b328c1381898f49172c4feb2fce4cebf123fb4555e0ce89fca02c2c2c6f3ba3c11dfd94d558786d128502⟩,
  ⟨0x41ce637607d6db092c630050a7f3ce44ff7bb2a8726090662d1564ce0b8a5747,
    0xa4c2e3dddcbf92e6c5e91422a0b05c676c6ac54797aeb3cd4b607b11d6976b0ac12c8bf9afa31d3a67bd9d855a8e1b8dd4cef038b77fde6b128d729d4ed4330b⟩,
  ⟨0x5a3f8850f99ca0b108bb235bad327cbc03dbda9518c4b514712ae09f4a91e787,
    0x291aa30b7698752882328e49f961b20534768500ee134827579326ca0b137bf3cb99cf5626c658a63e78e892e391a12a18632812fbde1b085b497ce1659a5c00⟩,
  ⟨0x30e37cde235e20b641fda06b4bcd99f1b035aeed8b4ebf950238636a86cdbac0,
    0x705a7490e5153c861366a3f79cf45a684317b8697042d08ebb6ffceb4ecf6e83dea00b13904c25ac254a75778bd2ea8b63540aed2f5272871c51646151363100⟩]

/-- The bytes that are hashed for a trust (trust.rs:145-153). -/
def hashed (key : Bytes) : Bytes := 0x00 :: key ++ le8 1737828468 ++ le8 1674756468

/-- The row is what the trust says, and the signature is one of the issuer. -/
def Row.Good (issuer r : Row) (t : TrustDto) : Prop :=
  Base58.encode (0x00 :: 0x24 :: pbEncode 1 r.keyBytes) = t.issuedFor ∧ Base58.encode r.sigBytes = t.signature ∧
  Ed25519Spec.valid r.keyBytes = true ∧ Ed25519Spec.verify issuer.keyBytes (Sha2.sha256 (hashed r.keyBytes)) r.sigBytes = true ∧
  t = ⟨t.issuedFor, 1737828468, t.signature, "ed25519".toList, 1674756468⟩

instance (issuer r : Row) (t : TrustDto) : Decidable (issuer.Good r t) := by unfold Row.Good; infer_instance

set_option maxRecDepth 100000

theorem root_good : rootRow.Good rootRow rootTrust := by decide +kernel

theorem label_good : rootRow.Good labelRow labelTrust := by decide +kernel

theorem example_good : rootRow.Good exampleRow exampleTrust := by decide +kernel

theorem nodes_good : List.Forall₂ (labelRow.Good · ·) nodeRows nodeTrusts := by
  unfold nodeRows nodeTrusts
  repeat' first | exact .nil | refine .cons (by decide +kernel) ?_

/-- The keys are different. -/
theorem keys_nodup : ((rootRow :: labelRow :: exampleRow :: nodeRows).map Row.key).Nodup := by decide +kernel

/-- The secret key of the example belongs to the key in the certificate. -/
theorem example_secret : ∃ sk, Base58.decode exampleSecret = some sk ∧ sk.length = 32 ∧ Ed25519Spec.publicKey sk = exampleRow.keyBytes := by
  refine ⟨(Base58.decode exampleSecret).getD [], ?_, ?_, ?_⟩ <;> decide +kernel

end TG.Shipped
