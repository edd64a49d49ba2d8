/-
Property C123: the certificates that are shipped with the service.
-/
import Verif.Proofs.Shipped
import Verif.Props.ExampleBoot
import Verif.Spec.Conforms

namespace TG
open TG.Service

namespace Shipped

theorem Row.keyBytes_length (r : Row) : r.keyBytes.length = 32 := by
  unfold Row.keyBytes Sha2.Params.wordBytes
  rw [List.length_map, List.length_range]

section
variable [Env]

/-- The key of a row. -/
def Row.pub (hc : Spec.Conforms) (r : Row) (hv : Ed25519Spec.valid r.keyBytes = true) : PublicKey :=
  .ed25519 r.keyBytes r.keyBytes_length (hc.valid _ hv)

theorem ed25519_congr {b b' : Bytes} {hl : b.length = 32} {hl' : b'.length = 32} {hv : Env.edValid b = true} {hv' : Env.edValid b' = true}
    (h : b = b') : PublicKey.ed25519 b hl hv = .ed25519 b' hl' hv' := by
  subst h; rfl

/-- The bytes of the signature of the trust in the key with these bytes. -/
def sigOf : List Row → Bytes → Bytes
  | [], _ => []
  | r :: rs, key => if r.keyBytes = key then r.sigBytes else sigOf rs key

omit [Env] in
theorem sigOf_mem {rs : List Row} (hn : (rs.map Row.keyBytes).Nodup) {r : Row} (hr : r ∈ rs) : sigOf rs r.keyBytes = r.sigBytes := by
  induction rs with
  | nil => nomatch hr
  | cons r' rs ih =>
    rw [List.map_cons, List.nodup_cons] at hn
    unfold sigOf
    rcases List.mem_cons.mp hr with rfl | hm
    · rw [if_pos rfl]
    · rw [if_neg (fun h : r'.keyBytes = r.keyBytes => hn.1 (h ▸ List.mem_map_of_mem hm)), ih hn.2 hm]

/-- The trust in a key, with the signature found in the rows. -/
def trustIn (rs : List Row) (k : PublicKey) : Trust :=
  ⟨k, .ofSecs 1737828468, .ed25519 (sigOf rs k.raw), .ofSecs 1674756468⟩

theorem toBase58_pub (hc : Spec.Conforms) (r : Row) (hv : Ed25519Spec.valid r.keyBytes = true) :
    (r.pub hc hv).toPeerId.toBase58 = Base58.encode (0x00 :: 0x24 :: pbEncode 1 r.keyBytes) := by
  have hl : (pbEncode 1 r.keyBytes).length = 36 := by
    unfold pbEncode
    rw [List.length_append, List.length_append, r.keyBytes_length]
    rfl
  unfold PublicKey.toPeerId
  show PeerId.toBase58 (if (pbEncode 1 r.keyBytes).length ≤ 42 then _ else _) = _
  rw [if_pos (by omega)]
  show Base58.encode (0x00 :: UInt8.ofNat (pbEncode 1 r.keyBytes).length :: pbEncode 1 r.keyBytes) = _
  rw [hl]
  rfl

theorem ofTrust_trustIn (hc : Spec.Conforms) {rs : List Row} (hn : (rs.map Row.keyBytes).Nodup) {issuer r : Row} (hr : r ∈ rs) {t : TrustDto}
    (h : issuer.Good r t) (hv : Ed25519Spec.valid r.keyBytes = true) : Dto.ofTrust (trustIn rs (r.pub hc hv)) = t := by
  refine Eq.trans ?_ h.2.2.2.2.symm
  unfold Dto.ofTrust trustIn
  dsimp only
  rw [toBase58_pub, h.1]
  show (⟨t.issuedFor, 1737828468, Base58.encode (sigOf rs r.keyBytes), _, 1674756468⟩ : TrustDto) = _
  rw [sigOf_mem hn hr, h.2.1]
  rfl

theorem verify_trustIn (hc : Spec.Conforms) {rs : List Row} (hn : (rs.map Row.keyBytes).Nodup) {issuer r : Row} (hr : r ∈ rs) {t : TrustDto}
    (h : issuer.Good r t) (hi : Ed25519Spec.valid issuer.keyBytes = true) {now : UInt64} (hnow : now ≤ 1737828468) :
    (trustIn rs (r.pub hc h.2.2.1)).verify (issuer.pub hc hi) (.ofSecs now) = .ok () := by
  rw [C38_verify_decides]
  constructor
  · have := UInt64.le_iff_toNat_le.mp hnow
    show now.toNat * 1000000000 + 0 ≤ (1737828468 : UInt64).toNat * 1000000000 + 0
    omega
  · show Ed25519.verify issuer.keyBytes (Env.sha256 (hashed r.keyBytes)) (sigOf rs r.keyBytes) = .ok ()
    unfold Ed25519.verify
    rw [sigOf_mem hn hr, hc.sha256, if_pos (hc.verify _ _ _ h.2.2.2.1)]

end

set_option maxRecDepth 100000 in
theorem keyBytes_nodup : ((rootRow :: labelRow :: exampleRow :: nodeRows).map Row.keyBytes).Nodup := by decide +kernel

theorem rootRows_nodup : (([rootRow, labelRow, exampleRow] : List Row).map Row.keyBytes).Nodup :=
  keyBytes_nodup.sublist (((List.nil_sublist nodeRows).cons_cons _ |>.cons_cons _ |>.cons_cons _).map _)

theorem nodeRows_nodup : (nodeRows.map Row.keyBytes).Nodup :=
  keyBytes_nodup.sublist (((List.Sublist.refl nodeRows).cons _ |>.cons _ |>.cons _).map _)

theorem nodeRows_valid : ∀ r ∈ nodeRows, ∃ t ∈ nodeTrusts, labelRow.Good r t := by
  have : ∀ {rs : List Row} {ts : List TrustDto}, List.Forall₂ (labelRow.Good · ·) rs ts → ∀ r ∈ rs, ∃ t ∈ ts, labelRow.Good r t := by
    intro rs ts h
    induction h with
    | nil => intro r hr; nomatch hr
    | cons h _ ih =>
      intro r hr
      rcases List.mem_cons.mp hr with rfl | hr
      · exact ⟨_, .head _, h⟩
      · obtain ⟨t, ht, h'⟩ := ih r hr
        exact ⟨t, .tail _ ht, h'⟩
  exact this nodes_good

section
variable [Env]

def rootKey (hc : Spec.Conforms) : PublicKey := rootRow.pub hc root_good.2.2.1
def labelKey (hc : Spec.Conforms) : PublicKey := labelRow.pub hc label_good.2.2.1
def exampleKey (hc : Spec.Conforms) : PublicKey := exampleRow.pub hc example_good.2.2.1
def nodeKeys (hc : Spec.Conforms) : List PublicKey :=
  nodeRows.pmap (fun r hv => r.pub hc hv) fun r hr => by obtain ⟨_, -, h⟩ := nodeRows_valid r hr; exact h.2.2.1

theorem pub_inj (hc : Spec.Conforms) {r r' : Row} {hv : Ed25519Spec.valid r.keyBytes = true} {hv' : Ed25519Spec.valid r'.keyBytes = true}
    (h : r.pub hc hv = r'.pub hc hv') : r.keyBytes = r'.keyBytes := congrArg PublicKey.raw h

theorem mem_nodeKeys (hc : Spec.Conforms) {k : PublicKey} (h : k ∈ nodeKeys hc) :
    ∃ r ∈ nodeRows, ∃ t, ∃ h : labelRow.Good r t, k = r.pub hc h.2.2.1 := by
  unfold nodeKeys at h
  obtain ⟨r, hr, rfl⟩ := List.mem_pmap.mp h
  obtain ⟨t, -, h'⟩ := nodeRows_valid r hr
  exact ⟨r, hr, t, h', rfl⟩

theorem node_ne (hc : Spec.Conforms) {r : Row} {hv : Ed25519Spec.valid r.keyBytes = true} (hr : r ∈ [rootRow, labelRow, exampleRow]) :
    r.pub hc hv ∉ nodeKeys hc := by
  intro h
  obtain ⟨r', hr', t, h', e⟩ := mem_nodeKeys hc h
  have hb := pub_inj hc e
  have hn := keyBytes_nodup
  rw [show rootRow :: labelRow :: exampleRow :: nodeRows = [rootRow, labelRow, exampleRow] ++ nodeRows from rfl, List.map_append] at hn
  exact (List.nodup_append.mp hn).2.2 _ (List.mem_map_of_mem hr) _ (List.mem_map_of_mem hr') hb

theorem network (hc : Spec.Conforms) : Spec.Network (rootKey hc) (labelKey hc) (exampleKey hc) (nodeKeys hc) where
  rootId := (toBase58_pub hc _ _).trans root_good.1
  labelId := (toBase58_pub hc _ _).trans label_good.1
  exRoot h := absurd (pub_inj hc h) (by have := rootRows_nodup; intro h; simp [h] at this)
  exLabel h := absurd (pub_inj hc h) (by have := rootRows_nodup; intro h; simp [h] at this)
  peersRoot := node_ne hc (by simp)
  peersLabel := node_ne hc (by simp)

theorem genuine (hc : Spec.Conforms) : Spec.Genuine (rootKey hc) (labelKey hc) (exampleKey hc) (nodeKeys hc) 1737828468
    (trustIn [rootRow, labelRow, exampleRow]) (trustIn nodeRows) where
  rootFor _ := rfl
  labelFor _ := rfl
  rootExpires _ := rfl
  labelExpires _ := rfl
  rootWhole _ := ⟨rfl, rfl⟩
  labelWhole _ := ⟨rfl, rfl⟩
  rootSigned := by
    rintro k (rfl | rfl | rfl) now hnow
    · exact verify_trustIn hc rootRows_nodup (by simp) root_good root_good.2.2.1 hnow
    · exact verify_trustIn hc rootRows_nodup (by simp) label_good root_good.2.2.1 hnow
    · exact verify_trustIn hc rootRows_nodup (by simp) example_good root_good.2.2.1 hnow
  labelSigned := by
    intro k hk now hnow
    obtain ⟨r, hr, t, h, rfl⟩ := mem_nodeKeys hc hk
    exact verify_trustIn hc nodeRows_nodup hr h label_good.2.2.1 hnow

theorem nodes_eq (hc : Spec.Conforms) : ((nodeKeys hc).map fun p => Dto.ofTrust (trustIn nodeRows p)) = nodeTrusts ∧
    ((nodeKeys hc).map fun p => p.toPeerId.toBase58) = nodeTrusts.map (·.issuedFor) := by
  have : ∀ {rs : List Row} {ts : List TrustDto} (hg : List.Forall₂ (labelRow.Good · ·) rs ts) (hv : ∀ r ∈ rs, Ed25519Spec.valid r.keyBytes = true),
      (∀ r ∈ rs, r ∈ nodeRows) →
      ((rs.pmap (fun r hv => r.pub hc hv) hv).map fun p => Dto.ofTrust (trustIn nodeRows p)) = ts ∧
      ((rs.pmap (fun r hv => r.pub hc hv) hv).map fun p => p.toPeerId.toBase58) = ts.map (·.issuedFor) := by
    intro rs ts hg
    induction hg with
    | nil => intro _ _; exact ⟨rfl, rfl⟩
    | cons h _ ih =>
      intro hv hm
      obtain ⟨h1, h2⟩ := ih (fun r hr => hv r (.tail _ hr)) (fun r hr => hm r (.tail _ hr))
      constructor
      · rw [List.pmap_cons, List.map_cons, h1, ofTrust_trustIn hc nodeRows_nodup (hm _ (.head _)) h]
      · rw [List.pmap_cons, List.map_cons, h2, toBase58_pub, h.1]
        rfl
  exact this nodes_good _ fun _ h => h

/-- The file is the list of certificates of these trusts. -/
theorem certs_eq (hc : Spec.Conforms) : (Spec.startCerts (rootKey hc) (labelKey hc) (exampleKey hc) (nodeKeys hc)
    (trustIn [rootRow, labelRow, exampleRow]) (trustIn nodeRows)).map Dto.ofCertificate = certs := by
  have hr : Dto.ofTrust (trustIn [rootRow, labelRow, exampleRow] (rootKey hc)) = rootTrust :=
    ofTrust_trustIn hc rootRows_nodup (by simp) root_good _
  have hl : Dto.ofTrust (trustIn [rootRow, labelRow, exampleRow] (labelKey hc)) = labelTrust :=
    ofTrust_trustIn hc rootRows_nodup (by simp) label_good _
  have hx : Dto.ofTrust (trustIn [rootRow, labelRow, exampleRow] (exampleKey hc)) = exampleTrust :=
    ofTrust_trustIn hc rootRows_nodup (by simp) example_good _
  unfold Spec.startCerts certs
  rw [List.map_cons, List.map_map, ← (nodes_eq hc).1, List.map_map]
  congr 1
  · unfold Dto.ofCertificate
    simp only [List.map_cons, List.map_nil, hr, hx]
  · refine List.map_congr_left fun p _ => ?_
    show Dto.ofCertificate _ = _
    unfold Dto.ofCertificate
    simp only [List.map_cons, List.map_nil, hr, hl, Function.comp_apply]

theorem nodeKeys_length (hc : Spec.Conforms) : (nodeKeys hc).length = 11 := by
  unfold nodeKeys
  rw [List.length_pmap]
  rfl

end
end Shipped

variable [LawfulEnv]

/-- **C123.** A new node, whose dependencies compute SHA-256 and Ed25519 as the standards say, is started by the creator of the service with the start script
and the certificates of on_start.json, before 2025-01-25 18:07:48 UTC.  The script reports nothing but `true`.  Until then the node takes exactly the eleven
nodes named in the file for Fluence peers; the weights are 32 for the root, 16 for the label and the example key, 8 for these nodes and 0 for all other keys.
Afterwards the root alone has weight, and no node is a Fluence peer. -/
theorem C123_shipped_certificates (hw : Env.wasm = true) (hc : Spec.Conforms) {n : Node} (ho : n.init = n.creator)
    (times : List UInt64) (hlen : times.length = Shipped.certs.length) (htimes : ∀ t ∈ times, t < 1737828468) :
    ∃ (root label ex : PublicKey) (peers : List PublicKey) (d : Db),
      root.toPeerId.toBase58 = Shipped.rootTrust.issuedFor ∧ label.toPeerId.toBase58 = Shipped.labelTrust.issuedFor ∧
      ex.toPeerId.toBase58 = Shipped.exampleTrust.issuedFor ∧
      (peers.map fun p => p.toPeerId.toBase58) = Shipped.nodeTrusts.map (·.issuedFor) ∧
      OnStart.run n (Shipped.certs.zip times) .empty = (.ok [.true], d) ∧
      (∀ now : UInt64, now < 1737828468 → Spec.Running root label ex peers d now) ∧
      ∀ now : UInt64, 1737828468 ≤ now → now.toNat < 2 ^ 63 → Spec.Over root d now := by
  have hl := Shipped.nodeKeys_length hc
  obtain ⟨cs, d, hrun, hfst, hd, hreach, hlength⟩ := start_imported hw (Shipped.network hc) (Shipped.genuine hc) (by decide) ho times
    (by rw [hlen, hl]; rfl) htimes (by rw [hl]; decide)
  obtain ⟨h1, h2⟩ := start_running hw (Shipped.network hc) (Shipped.genuine hc) (by decide) hfst hd hreach (by omega)
  rw [Shipped.certs_eq hc] at hrun
  exact ⟨_, _, _, _, d, (Shipped.network hc).rootId, (Shipped.network hc).labelId, (Shipped.toBase58_pub hc _ _).trans Shipped.example_good.1,
    (Shipped.nodes_eq hc).2, hrun, h1, h2⟩

/-- **C123**, a node that is started later: the script reports an error for each of the twelve certificates, and then `true`; the node knows the root and
nothing else. -/
theorem C123_shipped_too_late (hw : Env.wasm = true) (hc : Spec.Conforms) {n : Node} (ho : n.init = n.creator)
    (times : List UInt64) (hlen : times.length = Shipped.certs.length) (htimes : ∀ t ∈ times, 1737828468 < t) :
    ∃ root : PublicKey, root.toPeerId.toBase58 = Shipped.rootTrust.issuedFor ∧
      OnStart.run n (Shipped.certs.zip times) .empty =
        (.ok (List.replicate 12 (.error (some (.tgError (.trustVerificationError .expired)))) ++ [.true]), Db.empty.addRoot root 11) := by
  have hp := C60_wasm_keys hw
  refine ⟨Shipped.rootKey hc, (Shipped.network hc).rootId, ?_⟩
  have hg := Shipped.genuine hc
  have hform : ∀ c ∈ Spec.startCerts (Shipped.rootKey hc) (Shipped.labelKey hc) (Shipped.exampleKey hc) (Shipped.nodeKeys hc)
      (Shipped.trustIn [Shipped.rootRow, Shipped.labelRow, Shipped.exampleRow]) (Shipped.trustIn Shipped.nodeRows),
      (∀ t ∈ c.chain, t.WholeSeconds) ∧ c.chain[0]? = some (Shipped.trustIn [Shipped.rootRow, Shipped.labelRow, Shipped.exampleRow] (Shipped.rootKey hc)) := by
    intro c hm
    unfold Spec.startCerts at hm
    rcases List.mem_cons.mp hm with rfl | hm
    · refine ⟨fun t ht => ?_, rfl⟩
      simp only [List.mem_cons, List.not_mem_nil, or_false] at ht
      rcases ht with rfl | rfl <;> exact ⟨rfl, rfl⟩
    · obtain ⟨q, -, rfl⟩ := List.mem_map.mp hm
      refine ⟨fun t ht => ?_, rfl⟩
      simp only [List.mem_cons, List.not_mem_nil, or_false] at ht
      rcases ht with rfl | rfl | rfl <;> exact ⟨rfl, rfl⟩
  have hce := Shipped.certs_eq hc
  generalize hcs : Spec.startCerts (Shipped.rootKey hc) (Shipped.labelKey hc) (Shipped.exampleKey hc) (Shipped.nodeKeys hc)
    (Shipped.trustIn [Shipped.rootRow, Shipped.labelRow, Shipped.exampleRow]) (Shipped.trustIn Shipped.nodeRows) = cs at hform hce
  have hcl : cs.length = 12 := by rw [← hcs]; unfold Spec.startCerts; rw [List.length_cons, List.length_map, Shipped.nodeKeys_length]
  have h := C83_on_start_expired ho (Shipped.network hc).rootId (hp _) (db := .empty) (setRoot_noFaults (db := .empty) rfl _ 5) (cs.zip times)
    (fun p hm t ht => ⟨hp _, (hform _ (List.of_mem_zip hm).1).1 t ht⟩)
    (fun p hm => ⟨_, (hform _ (List.of_mem_zip hm).1).2, htimes _ (List.of_mem_zip hm).2⟩)
  have hzip : (cs.zip times).map Spec.toStart = Shipped.certs.zip times := by
    rw [← hce, List.zip_map_left]; rfl
  have hl : (cs.zip times).length = 12 := by rw [List.length_zip, hlen, hcl]; rfl
  rw [hzip, List.map_const', hl] at h
  exact h

/-- **C123**, the example: on a node started in this way the example program, with the secret key of the repository and any three nodes other than the root and
itself, prints what its README says, if it ends before the certificates expire. -/
theorem C123_shipped_example (hw : Env.wasm = true) (hc : Spec.Conforms) {sk : Bytes} (hsk : Base58.decode Shipped.exampleSecret = some sk)
    (hl : sk.length = 32) (hpub : Env.edPublic sk = Ed25519Spec.publicKey sk) {n : Node} (ho : n.init = n.creator)
    (times : List UInt64) (hlen : times.length = Shipped.certs.length) (htimes : ∀ t ∈ times, t < 1737828468)
    {α : Type} (compute : α) {relay : UInt64 → Node} (hclk : ∀ t, (relay t).now = t) (hinit : ∀ t, (relay t).init = Shipped.exampleTrust.issuedFor)
    {sig : SigService} (hs : Spec.SignsWith sig (.ed25519 sk hl)) (o : List Tetraplet) {clock : Nat → UInt64} (hclock : Spec.Clock clock)
    (hend : clock 21 < 1737828468) {A B C : PublicKey}
    (hne : ∀ x ∈ [A, B, C], x.toPeerId.toBase58 ≠ Shipped.rootTrust.issuedFor ∧ x.toPeerId.toBase58 ≠ Shipped.exampleTrust.issuedFor)
    (hAB : A ≠ B) (hAC : A ≠ C) (hBC : B ≠ C) :
    ∃ d, OnStart.run n (Shipped.certs.zip times) .empty = (.ok [.true], d) ∧
      (Example.main relay sig o Shipped.exampleTrust.issuedFor A.toPeerId.toBase58 B.toPeerId.toBase58 C.toPeerId.toBase58 compute clock d).1
        = .ok (Spec.documented A.toPeerId.toBase58 B.toPeerId.toBase58 C.toPeerId.toBase58 compute) := by
  have hlen' := Shipped.nodeKeys_length hc
  have hx : (KeyPair.ed25519 sk hl).pub = Shipped.exampleKey hc := by
    obtain ⟨sk', h1, -, h3⟩ := Shipped.example_secret
    rw [hsk] at h1
    cases h1
    rw [← hpub] at h3
    exact Shipped.ed25519_congr h3
  have hxid : (KeyPair.ed25519 sk hl).pub.toPeerId.toBase58 = Shipped.exampleTrust.issuedFor := by
    rw [hx]; exact (Shipped.toBase58_pub hc _ _).trans Shipped.example_good.1
  obtain ⟨cs, d, hrun, hfst, hd, hreach, hlength⟩ := start_imported hw (Shipped.network hc) (Shipped.genuine hc) (by decide) ho times
    (by rw [hlen, hlen']; rfl) htimes (by rw [hlen']; decide)
  rw [Shipped.certs_eq hc] at hrun
  refine ⟨d, hrun, ?_⟩
  rw [← hxid] at hinit ⊢
  exact start_example hw (by rw [hx]; exact Shipped.network hc) (by rw [hx]; exact Shipped.genuine hc) (by decide) (by rw [hx]; exact hfst) hd hreach (by omega)
    compute hclk hinit hs o hclock hend (fun x hm => ⟨fun e => (hne x hm).1 (e ▸ (Shipped.network hc).rootId), fun e => (hne x hm).2 (e ▸ hxid)⟩) hAB hAC hBC

end TG
