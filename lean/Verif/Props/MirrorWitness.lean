/-
Example for the hypotheses of C120, in the toy environment.
-/
import Verif.Props.Mirror
import Verif.Props.CarryAllWitness
import Verif.Proofs.ServiceRun

namespace TG
open TG.Toy

set_option maxRecDepth 100000

namespace CarryDemo

def host : Str := (pk 8).toPeerId.toBase58

/-- Somebody asks, with the time of the node's clock as second argument. -/
def cp : CallParams := ⟨[], [], host, [[], [⟨host, "peer".toList, "timestamp_sec".toList⟩], []]⟩

def dcs : List (CallParams × CertDto × UInt64) := (certs.map Dto.ofCertificate).zip [20, 21, 22] |>.map fun p => (cp, p)

def drs : List (CallParams × RevocationDto × UInt64) := rs.map fun r => (cp, Dto.ofRevocation r, 23)

theorem served : (Service.getAllCerts cp (pk 7).toPeerId.toBase58 10 A).1 = .ok ⟨true, none, certs.map Dto.ofCertificate⟩ := by
  have h := (C75_certificate_queries cp (pk 7) (pk 7) (C60_wasm_keys rfl _) (C60_wasm_keys rfl _) 10 A).1 ⟨[], rfl⟩
  unfold Spec.PassesOn at h
  rw [h, show TrustGraph.getAllCerts (pk 7) (.ofSecs 10) A = _ from pair facts.1]

theorem servedRevocations (k : PublicKey) {p : Certificate × Dur} (hp : p ∈ cs) (hk : k ∈ p.1.keys) :
    (Service.exportRevocations cp k.toPeerId.toBase58 A).1 = .ok ⟨true, none, (if k = pk 4 then rs else []).map Dto.ofRevocation⟩ := by
  have h := (C75_other_queries cp k k (C60_wasm_keys rfl _) (C60_wasm_keys rfl _) 10 A).2.2
  unfold Spec.PassesOn at h
  rw [h, show TrustGraph.getRevocations k A = _ from pair (revocations p hp k hk)]

theorem dcs_mem {p : CallParams × CertDto × UInt64} (hp : p ∈ dcs) : ∃ c ∈ certs, p.2.1 = Dto.ofCertificate c ∧ p.2.2 ∈ [(20 : UInt64), 21, 22] ∧
    ∃ q ∈ cs, q.1 = c := by
  obtain ⟨q, hq, rfl⟩ := List.mem_map.mp hp
  obtain ⟨h1, h2⟩ := List.of_mem_zip hq
  obtain ⟨c, hc, e⟩ := List.mem_map.mp h1
  refine ⟨c, hc, e.symm, h2, ?_⟩
  have := all ▸ hc
  obtain ⟨q, hq, rfl⟩ := List.mem_map.mp this
  exact ⟨q, hq, rfl⟩

theorem dlimit : ∀ c ∈ certs, ∀ t ∈ c.chain[0]?, ∀ f ∈ A.rootFactor t.issuedFor, c.chain.length ≤ 16 - f + 1 := by decide +kernel
theorem dlive : ∀ c ∈ certs, ∀ q ∈ [(20 : UInt64), 21, 22], ∀ t ∈ c.chain, asI64 q < asI64 t.expiresAt.secs := by decide +kernel
theorem dtime : ∀ q ∈ [(20 : UInt64), 21, 22], q.toNat < 2 ^ 63 := by decide +kernel

theorem names {k k' : PublicKey} (h : Spec.Names k.toPeerId.toBase58 k') : k' = k :=
  Spec.Names.unique h (extract_names (extractPublicKey_toPeerId k (C60_wasm_keys rfl k)))

theorem mirrors : Spec.Mirrors A B 10 dcs drs where
  empty r h := carried.empty r h
  roots := carried.roots
  certs p hp := by
    obtain ⟨c, hc, e, -, -⟩ := dcs_mem hp
    exact ⟨cp, _, _, _, pair served, e ▸ List.mem_map_of_mem hc⟩
  limit p hp t k f ht hk hf := by
    obtain ⟨c, hc, e, -, -⟩ := dcs_mem hp
    rw [e] at ht ⊢
    rw [show (Dto.ofCertificate c).chain = c.chain.map Dto.ofTrust from rfl, List.getElem?_map] at ht
    obtain ⟨t', ht', rfl⟩ := Option.map_eq_some_iff.mp ht
    have hk := names (k := t'.issuedFor) hk
    subst hk
    have := dlimit c hc t' ht' f hf
    rwa [← List.length_map (f := Dto.ofTrust)] at this
  live p hp q hq t ht := by
    obtain ⟨c, hc, e, -, -⟩ := dcs_mem hp
    obtain ⟨-, -, -, hq, -⟩ := dcs_mem hq
    rw [e] at ht
    obtain ⟨t', ht', rfl⟩ := List.mem_map.mp ht
    exact dlive c hc _ hq t' ht'
  time q hq := by
    obtain ⟨-, -, -, hq, -⟩ := dcs_mem hq
    exact dtime _ hq
  revocations q hq := by
    obtain ⟨r, hr, rfl⟩ := List.mem_map.mp hq
    obtain ⟨p, hp, hk⟩ := onCert
    exact ⟨cp, _, _, _, pair (servedRevocations (pk 4) hp hk), by rw [if_pos rfl]; exact List.mem_map_of_mem hr⟩
  complete p hp t ht := by
    obtain ⟨c, hc, e, -, q, hq, rfl⟩ := dcs_mem hp
    rw [e] at ht
    obtain ⟨t', ht', rfl⟩ := List.mem_map.mp ht
    refine ⟨cp, _, _, pair (servedRevocations t'.issuedFor hq (List.mem_map_of_mem ht')), fun d hd => ?_⟩
    obtain ⟨r, hr, rfl⟩ := List.mem_map.mp hd
    have hr : r ∈ rs := by
      split at hr
      · exact hr
      · cases hr
    exact ⟨_, List.mem_map_of_mem hr, rfl⟩
  clock q hq := by
    obtain ⟨r, hr, rfl⟩ := List.mem_map.mp hq
    rw [show r = revocation 2 4 5 from List.mem_singleton.mp hr]
    exact ⟨⟨[], rfl⟩, by decide +kernel⟩

end CarryDemo

open CarryDemo in
/-- The hypotheses of C120. -/
example : Env.wasm = true ∧ Reachable A ∧ Reachable B ∧ B.NoFaults ∧ Spec.Mirrors A B 10 dcs drs ∧
    (dcs.map (·.2.1.chain.length)).sum + drs.length + 16 < 2 ^ 32 ∧
    Service.getAllCerts cp (pk 7).toPeerId.toBase58 10 A = (.ok ⟨true, none, certs.map Dto.ofCertificate⟩, (Service.getAllCerts cp (pk 7).toPeerId.toBase58 10 A).2) ∧
    ∀ d ∈ certs.map Dto.ofCertificate, ∃ p ∈ dcs, p.2.1 = d := by
  have h : (dcs.map (·.2.1.chain.length)).sum + drs.length + 16 < 2 ^ 32 := by decide +kernel
  have h' : dcs.map (·.2.1) = certs.map Dto.ofCertificate := by
    unfold dcs
    rw [List.map_map, show (fun x : CallParams × CertDto × UInt64 => x.2.1) ∘ (fun p => (cp, p)) = Prod.fst from rfl, List.map_fst_zip (by decide)]
  exact ⟨rfl, reachableA, reachableB, noFaults, mirrors, h, pair served, fun d hd => List.mem_map.mp (h' ▸ hd)⟩

end TG
