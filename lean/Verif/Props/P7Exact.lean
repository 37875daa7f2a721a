import Verif.Proofs.P7Exact
import Verif.Proofs.BerRead
import Verif.Props.X509
import Verif.Props.DerJar
/-! # C66: which signature blocks are accepted and what is recorded of them -/
namespace Apk

/-- C66: a signature block (after conversion to DER) yields signers exactly if it is one in the sense of the specification; certificates,
    signers and content type are then those that it says. -/
theorem C66_signature_block_iff {ce : CertEnv} {env : Env1} {d : Bytes} {p7 : P7} :
    ((concreteEnv1 ce env).parseP7 d = some p7 ∧ p7.signers ≠ []) ↔ SignatureBlockIs ce d p7 := by
  rw [← parseP7Der_iff]
  show (noPanic (parseP7Der ce d) = some p7 ∧ _) ↔ _
  rw [noPanic_iff]

/-- C66: the same for the bytes of the file: they start with a value in (lenient) BER whose DER encoding is a signature block. -/
theorem C66_file_iff {ce : CertEnv} {env : Env1} {b : Bytes} {p7 : P7} :
    (p7Parse (concreteEnv1 ce env) b = .ok (some p7) ∧ p7.signers ≠ []) ↔ ∃ t r, BerReads b t r ∧ SignatureBlockIs ce t.encode p7 := by
  have key : p7Parse (concreteEnv1 ce env) b = .ok (some p7) ↔ ∃ t r, BerReads b t r ∧ (concreteEnv1 ce env).parseP7 t.encode = some p7 := by
    unfold p7Parse
    constructor
    · intro h
      by_cases hb : b = []
      · rw [if_pos hb] at h; cases h
      · rw [if_neg hb] at h
        rcases hd : ber2der b with p | (e | der)
        · rw [hd] at h; cases h
        · rw [hd] at h; cases h
        · rw [hd] at h
          obtain ⟨t, r, h1, rfl⟩ := ber2der_iff.1 hd
          exact ⟨t, r, h1, Except.ok.inj h⟩
    · rintro ⟨t, r, h1, h2⟩
      have hd := ber2der_iff.2 ⟨t, r, h1, rfl⟩
      have hb : b ≠ [] := by
        rintro rfl
        exact absurd hd (by simp [ber2der])
      rw [if_neg hb, hd]
      exact congrArg _ h2
  rw [key]
  constructor
  · rintro ⟨⟨t, r, h1, h2⟩, h3⟩
    exact ⟨t, r, h1, C66_signature_block_iff.1 ⟨h2, h3⟩⟩
  · rintro ⟨t, r, h1, h2⟩
    obtain ⟨h3, h4⟩ := C66_signature_block_iff (env := env).2 h2
    exact ⟨⟨t, r, h1, h3⟩, h4⟩

/-- C66: a message for recipients (EnvelopedData) is read exactly if it is one; nothing of it is recorded. -/
theorem C66_enveloped_iff {ce : CertEnv} {env : Env1} {c0 d : Bytes} {content : RawVal} {p7 : P7}
    (h : Reads ce.toAsnEnv Schema.contentInfo {} (c0, ([1,2,840,113549,1,7,3] : List Nat), content, ()) d []) :
    (concreteEnv1 ce env).parseP7 d = some p7 ↔ p7 = ⟨[], [], []⟩ ∧ ∃ v rest, Reads ce.toAsnEnv Schema.envelopedData {} v content.bytes rest := by
  show noPanic (parseP7Der ce d) = some p7 ↔ _
  rw [noPanic_iff]
  unfold parseP7Der
  have h' : unmAll ce.toAsnEnv contentInfoTy d = _ := unmAll_iff.2 h
  rw [h']
  show dispatchP7 ce [1,2,840,113549,1,7,3] content = _ ↔ _
  unfold dispatchP7
  rw [if_neg (by decide), if_pos rfl]
  unfold parseEnveloped
  obtain ⟨q, hq⟩ := unmFirst_total ce.toAsnEnv envelopedTy content.bytes
  rw [hq]
  cases q with
  | none =>
    constructor
    · intro k; cases k
    · rintro ⟨_, v, rest, k⟩
      have k' : unmFirst ce.toAsnEnv envelopedTy content.bytes = _ := unmFirst_iff.2 k
      rw [hq] at k'
      cases k'
  | some q =>
    constructor
    · intro k
      exact ⟨(Option.some.inj (Except.ok.inj k)).symm, q.1, q.2, unmFirst_iff.1 hq⟩
    · rintro ⟨rfl, _⟩
      rfl

/-- C66: a message with any other content type is refused. -/
theorem C66_other_types {ce : CertEnv} {env : Env1} {c0 d : Bytes} {oid : List Nat} {content : RawVal}
    (h : Reads ce.toAsnEnv Schema.contentInfo {} (c0, oid, content, ()) d []) (h2 : oid ≠ [1,2,840,113549,1,7,2]) (h3 : oid ≠ [1,2,840,113549,1,7,3]) :
    (concreteEnv1 ce env).parseP7 d = none := by
  show noPanic (parseP7Der ce d) = none
  unfold parseP7Der
  have h' : unmAll ce.toAsnEnv contentInfoTy d = _ := unmAll_iff.2 h
  rw [h']
  show noPanic (dispatchP7 ce oid content) = _
  unfold dispatchP7
  rw [if_neg h2, if_neg h3]
  rfl

/-- C66: what a signature block says is determined by its bytes. -/
theorem C66_unique {ce : CertEnv} {d : Bytes} {p7 p7' : P7} (h : SignatureBlockIs ce d p7) (h' : SignatureBlockIs ce d p7') : p7 = p7' := by
  have := (parseP7Der_iff.2 h).1.symm.trans (parseP7Der_iff.2 h').1
  simpa using this

/-- C66: every message that follows RFC 2315 and has a signer is a signature block, with its certificates, signers and content type. -/
theorem C66_rfc_messages {ce : CertEnv} {ct : List Nat} {certs : List Bytes} {signers : List P7Signer} {d : Bytes} {parsed : List Cert}
    (h : Pkcs7Enc ct certs signers d) (hp : List.map some parsed = certs.map (fun b => (noPanic (parseCert509 ce b)).map Prod.fst)) (hs : signers ≠ []) :
    SignatureBlockIs ce d ⟨parsed, signers, ct⟩ :=
  C66_signature_block_iff (env := Toy.env1 []).1 ⟨C55_message_read_back h hp.symm, hs⟩

/-- C66: what is read of the values of attributes and of issuers: one element, anything may follow. -/
theorem C66_attribute_values {ce : CertEnv} {env : Env1} {b : Bytes} :
    (∀ oid, (concreteEnv1 ce env).unmOid b = some oid ↔ ∃ e rest, OidElem oid e ∧ b = e ++ rest) ∧
    (∀ x, (concreteEnv1 ce env).unmOctets b = some x ↔ ∃ e rest, Elem 0 4 false x e ∧ b = e ++ rest) := by
  have val : ∀ {t : Ty} {v : t.interp}, noPanic (unmValue ce.toAsnEnv t b) = some v ↔ ∃ rest, Reads ce.toAsnEnv t {} v b rest := by
    intro t v
    rw [noPanic_iff]
    unfold unmValue
    obtain ⟨r, hr⟩ := unmFirst_total ce.toAsnEnv t b
    rw [hr]
    constructor
    · intro h
      cases r with
      | none => cases h
      | some q =>
        cases Option.some.inj (Except.ok.inj h)
        exact ⟨q.2, unmFirst_iff.1 hr⟩
    · rintro ⟨rest, h⟩
      rw [unmFirst_iff.2 h] at hr
      cases Except.ok.inj hr
      rfl
  constructor
  · intro oid
    refine (val (t := .oid) (v := oid)).trans ⟨?_, ?_⟩
    · rintro ⟨rest, h⟩
      obtain ⟨front, _, rfl, h2⟩ := reads_local h
      have := h2 []
      rw [List.append_nil] at this
      exact ⟨front, rest, reads_oidElem.1 this, rfl⟩
    · rintro ⟨e, rest, h, rfl⟩
      exact ⟨rest, reads_oid plain0 h rest⟩
  · intro x
    refine (val (t := .octets) (v := x)).trans ⟨?_, ?_⟩
    · rintro ⟨rest, h⟩
      obtain ⟨o, h1, h2⟩ := reads_octets_iff.1 h
      exact ⟨o, rest, h1, h2⟩
    · rintro ⟨e, rest, h, h2⟩
      exact ⟨rest, reads_octets_iff.2 ⟨e, h, h2⟩⟩

/-! ## Examples -/

theorem blockIs_of_check {ce : CertEnv} {d : Bytes} (h : (match parseP7Der ce d with
    | .ok (some p7) => decide (p7.signers ≠ [])
    | _ => false) = true) : ∃ p7, SignatureBlockIs ce d p7 := by
  obtain ⟨r, hr⟩ := parseP7Der_total ce d
  rw [hr] at h
  cases r with
  | none => cases h
  | some p7 => exact ⟨p7, parseP7Der_iff.1 ⟨hr, of_decide_eq_true h⟩⟩

theorem not_blockIs_of_check {ce : CertEnv} {d : Bytes} (h : (match parseP7Der ce d with
    | .ok (some p7) => decide (p7.signers ≠ [])
    | _ => false) = false) : ¬ ∃ p7, SignatureBlockIs ce d p7 := by
  rintro ⟨p7, hp⟩
  obtain ⟨hr, hs⟩ := parseP7Der_iff.2 hp
  rw [hr] at h
  exact absurd hs (of_decide_eq_false h)

set_option maxRecDepth 8000 in
/-- C66: the message of the examples is a signature block with one certificate and one signer. -/
theorem C66_message_example : ∃ cert, SignatureBlockIs Toy.ce (Toy.dMsg (b!"x") Toy.xCert (Toy.dAttrs [1, 2, 3]) [9, 9])
    ⟨[cert], [Toy.xSigner [1, 2, 3] [9, 9]], [1,2,840,113549,1,7,1]⟩ ∧ cert.raw = Toy.xCert := by
  obtain ⟨cert, h1, h2, _⟩ := C59_certificate_example
  refine ⟨cert, C66_rfc_messages C55_message_example ?_ (by simp), h2⟩
  have h1 : (noPanic (parseCert509 Toy.ce Toy.xCert)).map Prod.fst = some cert := h1
  rw [List.map_cons, List.map_cons, h1]
  rfl

theorem parses_of_check {ce : CertEnv} {env : Env1} {d : Bytes} (h : (match parseP7Der ce d with
    | .ok (some p7) => decide (p7.signers = [])
    | _ => false) = true) : ∃ p7, (concreteEnv1 ce env).parseP7 d = some p7 ∧ p7.signers = [] := by
  obtain ⟨r, hr⟩ := parseP7Der_total ce d
  rw [hr] at h
  cases r with
  | none => cases h
  | some p7 => exact ⟨p7, noPanic_iff.2 hr, of_decide_eq_true h⟩

/-- C66: an EnvelopedData with one recipient. -/
def Toy.envMsg (recipient : Bytes) (contentTag : UInt8) : Bytes :=
  Toy.el 48 (Toy.oidP7 3 ++ Toy.el 0xA0 (Toy.el 48 (Toy.el 2 [0] ++ Toy.el 49 (Toy.el 48 (Toy.el 2 [0] ++ Toy.el 48 (Toy.el 48 [] ++ Toy.el 2 [5]) ++
    Toy.el 48 (Toy.oidP7 1) ++ recipient)) ++ Toy.el 48 (Toy.oidP7 1 ++ Toy.el 48 (Toy.oidP7 1) ++ Toy.el contentTag [1]))))

/-- C66: a message for a recipient is read, nothing is recorded of it; one without the key is refused. -/
theorem C66_enveloped_examples :
    (∃ p7, (concreteEnv1 Toy.ce (Toy.env1 [])).parseP7 (Toy.envMsg (Toy.el 4 [1, 2]) 0x80) = some p7 ∧ p7.signers = []) ∧
    (concreteEnv1 Toy.ce (Toy.env1 [])).parseP7 (Toy.envMsg [] 0x80) = none := by
  refine ⟨parses_of_check ?_, ?_⟩
  · decide +kernel
  · have : (match parseP7Der Toy.ce (Toy.envMsg [] 0x80) with | .ok none => true | _ => false) = true := by decide +kernel
    show noPanic (parseP7Der Toy.ce (Toy.envMsg [] 0x80)) = none
    generalize parseP7Der Toy.ce (Toy.envMsg [] 0x80) = r at this
    rcases r with p | (_ | _)
    · rfl
    · rfl
    · cases this

/-- C66: deviations from the RFC that are accepted: attribute values that are no SET, bytes after the SignedData and after its last
    field; and some that are not: another content type, signers that are no SET, bytes after the message, a certificate that cannot be read. -/
theorem C66_lenient_examples :
    let attrs : Bytes := Toy.el 48 (Toy.oidP9 4 ++ Toy.el 4 [1])
    let signed (ct signers extra : Bytes) (cert : Bytes) : Bytes :=
      Toy.el 48 (ct ++ Toy.el 0xA0 (Toy.el 48 (Toy.el 2 [1] ++ Toy.el 49 [] ++ Toy.el 48 (Toy.oidP7 1) ++ Toy.el 0xA0 cert ++ signers ++ extra) ++ extra))
    let signer := Toy.dSigner (b!"x") attrs [9]
    (∃ p7, SignatureBlockIs Toy.ce (signed (Toy.oidP7 2) (Toy.el 49 signer) [7, 7, 7] Toy.xCert) p7) ∧
    (¬ ∃ p7, SignatureBlockIs Toy.ce (signed (Toy.oidP7 3) (Toy.el 49 signer) [] Toy.xCert) p7) ∧
    (¬ ∃ p7, SignatureBlockIs Toy.ce (signed (Toy.oidP7 2) (Toy.el 48 signer) [] Toy.xCert) p7) ∧
    (¬ ∃ p7, SignatureBlockIs Toy.ce (signed (Toy.oidP7 2) (Toy.el 49 signer) [] Toy.xCert ++ [5, 0]) p7) ∧
    (¬ ∃ p7, SignatureBlockIs Toy.ce (signed (Toy.oidP7 2) (Toy.el 49 signer) [] (Toy.xCert ++ [5, 0])) p7) := by
  refine ⟨blockIs_of_check ?_, not_blockIs_of_check ?_, not_blockIs_of_check ?_, not_blockIs_of_check ?_, not_blockIs_of_check ?_⟩ <;> decide +kernel

end Apk
