import Verif.Proofs.JarAccept
import Verif.Props.DerJar
import Verif.Props.X509
/-! # C73: archives signed by a reference JAR signer are accepted -/
namespace Apk.Jar

/-- C73: an archive whose files were signed by one to ten signers of the JAR (v1) scheme is accepted, in whatever order its entries are
    stored and enumerated, and the reported chains are those of the certificates of the signers, one for each signer. The digest
    algorithms must be ones that a platform of the range knows, and no signature file may announce a v2 signature when there is no
    signing block and a platform of the range knows it. -/
theorem C73_signed_jar_accepted (ce : CertEnv) (env : Env1) (t : TextCode (concreteEnv1 ce env)) (a : JarAlg) (tool : Bytes) (fs : List (Bytes × Bytes))
    (ss : List Signer) (z : Zip1) (ord : Ord1) (hasBlock : Bool) (minSdk maxSdk : Int) (hl : env.toLower [] = [])
    (hz : HasFiles z (contents t a tool fs ss)) (hf : FilesOk fs) (ht : PlainText tool) (hn : (ss.map Signer.stem).Nodup)
    (hs : ∀ s ∈ ss, s.Ok ce (concreteEnv1 ce env) (signatureFile t a tool fs s).bytes) (hne : ss ≠ []) (hten : ss.length ≤ 10)
    (ha : AlgFor minSdk maxSdk a) (has : ∀ s ∈ ss, AlgFor minSdk maxSdk s.alg)
    (hd : hasBlock = false → 24 ≤ maxSdk → ∀ s ∈ ss, ∀ ids, s.schemes = some ids → ¬ ListsTwo ids) :
    ∃ c, verifySchemeV1 (concreteEnv1 ce env) ord z hasBlock minSdk maxSdk = .ok (c, none) ∧ c.length = ss.length ∧
      ∀ raws, raws ∈ c.map (fun ch => ch.map Cert.raw) ↔ ∃ s ∈ ss, ∃ ch, ChainIs (concreteEnv1 ce env) s.parsed s.cert ch ∧ raws = ch.map Cert.raw := by
  have h : Setup ce env t a tool fs ss z := ⟨hz, hf, ht, hn, hs⟩
  obtain ⟨c, hc⟩ := (C62_accepted_iff (concreteEnv1 ce env) ord z hasBlock minSdk maxSdk h.distinctStems).2
    ⟨_, _, h.theManifest, h.readable, h.signaturesAre, h.accepted hl ha has hne hten hd⟩
  obtain ⟨h1, h2⟩ := C62_reported_chains _ _ _ _ _ _ h.distinctStems c hc _ h.theManifest _ h.signaturesAre
  refine ⟨c, hc, ?_⟩
  by_cases hr : ∃ p, Required z p
  · obtain ⟨p, hp⟩ := hr
    exact h.chains (h.countsFor hl has hp) (h1 p hp)
  · exact h.chains (fun _ _ => trivial) (h2 fun p hp => hr ⟨p, hp⟩)

end Apk.Jar
