import Verif.Proofs.EnvelopeTrip
import Verif.Props.P7SignExample
/-!
# C78: encrypted messages

`Encrypt` and `Decrypt` of PKCS#7 messages, for every message, key, certificate and cipher; and the padding of block ciphers (C43).
-/
namespace Apk
open P7M P7S Mar Crypt

/-! ## Padding -/

/-- C43: what removing the padding gives, for all data and block lengths: the data is a number of whole blocks that ends with `n` bytes
    `n`. The number may be 0 (then nothing is removed) or larger than a block. -/
theorem C43_unpad_iff {d x : Bytes} {bl : Int} : unpadBlock d bl = .ok (.ok x) ↔ 1 ≤ bl ∧ (d.length : Int) % bl = 0 ∧ ∃ n, PaddedBy n x d := by
  by_cases h : 1 ≤ bl
  · obtain ⟨k, rfl⟩ : ∃ k : Nat, bl = k := ⟨bl.toNat, by omega⟩
    rw [unpad_iff (by omega)]
    constructor
    · rintro ⟨h1, h2⟩; exact ⟨h, by omega, h2⟩
    · rintro ⟨_, h1, h2⟩; exact ⟨by omega, h2⟩
  · unfold unpadBlock
    rw [if_pos (by omega)]
    constructor
    · intro h; cases h
    · rintro ⟨h1, _⟩; exact absurd h1 h

/-- C43: exactly when removing the padding panics: the last byte is larger than the number of bytes. -/
theorem C43_unpad_panics_iff {d : Bytes} {bl : Int} {p : Panic} :
    unpadBlock d bl = .error p ↔ 1 ≤ bl ∧ d ≠ [] ∧ (d.length : Int) % bl = 0 ∧ d.length < (d.getLastD 0).toNat ∧ p = .sliceOutOfRange := by
  by_cases h : 1 ≤ bl
  · obtain ⟨k, rfl⟩ : ∃ k : Nat, bl = k := ⟨bl.toNat, by omega⟩
    rw [unpad_panics (by omega)]
    constructor
    · rintro ⟨h1, h2, h3, h4⟩; exact ⟨h, h3, by omega, h2, h4⟩
    · rintro ⟨_, h3, h1, h2, h4⟩; exact ⟨by omega, h2, h3, h4⟩
  · unfold unpadBlock
    rw [if_pos (by omega)]
    constructor
    · intro h; cases h
    · rintro ⟨h1, _⟩; exact absurd h1 h

/-! ## Reading and decrypting -/

/-- C78: an EnvelopedData as RFC 2315 has it is read with all its parts. -/
theorem C78_envelope_read {ce : CertEnv} {e : P7Envelope} {d : Bytes} (h : EnvelopeEnc e d) :
    ∃ m v, parseMsgDer ce d = .ok (some m) ∧ m.enveloped = some v ∧ P7Envelope.of v = e ∧ m.content = [] ∧ m.certs = [] ∧ m.infos = [] :=
  ⟨_, e.go, envelope_read h, rfl, envelope_go e, rfl, rfl, rfl⟩

/-- C78: what `Decrypt` returns for an RSA key, for every message, certificate, key and cipher. -/
theorem C78_decrypt_iff {env : CryptEnv} {m : P7Msg} {v : envelopedTy.interp} (hm : m.enveloped = some v) {cert : SignCert} {k : Nat} {x : Bytes} :
    decryptMsg env m cert (.rsa k) = .ok (.ok x) ↔ Decrypts env (P7Envelope.of v) cert k x := by
  unfold decryptMsg
  rw [hm]
  dsimp only
  constructor
  · intro h
    cases hf : (P7Envelope.of v).recipients.find? (recipMatches cert) with
    | none => rw [hf] at h; cases h
    | some r =>
      rw [hf] at h
      dsimp only at h
      cases hk : env.rsaDecrypt k r.encKey with
      | none => rw [hk] at h; cases h
      | some ck =>
        rw [hk] at h
        obtain ⟨ct, _, hct⟩ := cipherText_run env.toAsnEnv (P7Envelope.of v).content
        exact ⟨r, ck, ct, (find_iff (fun _ => recipMatches_iff)).1 hf, hk, hct, (decryptContent_iff hct).1 h⟩
  · rintro ⟨r, ck, ct, hf, hk, hct, hx⟩
    rw [(find_iff (fun _ => recipMatches_iff)).2 hf]
    dsimp only
    rw [hk]
    exact (decryptContent_iff hct).2 hx

/-- C78: who is not a recipient gets nothing, whatever the key is; nor does anyone from a message that is not encrypted. -/
theorem C78_not_recipient {env : CryptEnv} {m : P7Msg} {cert : SignCert} {key : RsaKey} :
    (m.enveloped = none → decryptMsg env m cert key = .ok (.error .notEncrypted)) ∧
    ∀ v, m.enveloped = some v → (∀ r ∈ (P7Envelope.of v).recipients, ¬ ForCert cert r) → decryptMsg env m cert key = .ok (.error .noRecipient) := by
  constructor
  · intro h; unfold decryptMsg; rw [h]
  · intro v h hr
    unfold decryptMsg
    rw [h]
    dsimp only
    rw [find_none.2 hr]

/-- C78: exactly when `Decrypt` panics: there is a recipient info for the certificate, and the private key is not an RSA key, or it
    decrypts the content key, the contents are encrypted in CBC mode, key and initialization vector have the right length, and the
    ciphertext is not made of whole blocks or decrypts to something that ends with a byte larger than its length. -/
theorem C78_panics_iff {env : CryptEnv} {m : P7Msg} {cert : SignCert} {key : RsaKey} {p : Panic} :
    decryptMsg env m cert key = .error p ↔ ∃ v r, m.enveloped = some v ∧ FirstWith (ForCert cert) (P7Envelope.of v).recipients r ∧
      ((key = .other ∧ p = .typeAssertion) ∨
       ∃ n ck ct k, key = .rsa n ∧ env.rsaDecrypt n r.encKey = some ck ∧ CipherIs (P7Envelope.of v).content ct ∧ CbcIs (P7Envelope.of v).alg.oid k ∧
        CipherSizes k k.size ck.length ∧ (P7Envelope.of v).alg.params.bytes.length = k.size ∧ CbcPanics env k (P7Envelope.of v).alg.params.bytes ck ct p) := by
  unfold decryptMsg
  constructor
  · intro h
    cases hm : m.enveloped with
    | none => rw [hm] at h; cases h
    | some v =>
      rw [hm] at h
      dsimp only at h
      cases hf : (P7Envelope.of v).recipients.find? (recipMatches cert) with
      | none => rw [hf] at h; cases h
      | some r =>
        rw [hf] at h
        refine ⟨v, r, rfl, (find_iff (fun _ => recipMatches_iff)).1 hf, ?_⟩
        cases key with
        | other => cases h; exact .inl ⟨rfl, rfl⟩
        | nilRsa => cases h
        | rsa n =>
          dsimp only at h
          cases hk : env.rsaDecrypt n r.encKey with
          | none => rw [hk] at h; cases h
          | some ck =>
            rw [hk] at h
            obtain ⟨ct, _, hct⟩ := cipherText_run env.toAsnEnv (P7Envelope.of v).content
            obtain ⟨k, h1, h2, h3, h4⟩ := (decryptContent_panics hct).1 h
            exact .inr ⟨n, ck, ct, k, rfl, hk, hct, h1, h2, h3, h4⟩
  · rintro ⟨v, r, hm, hf, h⟩
    rw [hm]
    dsimp only
    rw [(find_iff (fun _ => recipMatches_iff)).2 hf]
    rcases h with ⟨rfl, rfl⟩ | ⟨n, ck, ct, k, rfl, hk, hct, h1, h2, h3, h4⟩
    · rfl
    · dsimp only
      rw [hk]
      exact (decryptContent_panics hct).2 ⟨k, h1, h2, h3, h4⟩

/-- C78: contents encrypted with AES-GCM and parameters as in RFC 5084, where the nonce and the length of the tag are directly in the
    parameters, are never decrypted. -/
theorem C78_rfc5084_refused {env : CryptEnv} {m : P7Msg} {v : envelopedTy.interp} (hm : m.enveloped = some v) {nonce n more : Bytes}
    (ha : (P7Envelope.of v).alg.oid = gcmOid) (hn : Elem 0 4 false nonce n) (hp : (P7Envelope.of v).alg.params.bytes = n ++ more) (cert : SignCert) (k : Nat) (x : Bytes) :
    decryptMsg env m cert (.rsa k) ≠ .ok (.ok x) := by
  intro h
  obtain ⟨r, key, ct, _, _, _, hc⟩ := (C78_decrypt_iff hm).1 h
  cases hc with
  | cbc hcb _ _ _ _ =>
    rw [ha] at hcb
    have h1 := algOf_cbc.2 hcb
    have h2 := (algOf_gcm (oid := gcmOid)).2 rfl
    rw [h1] at h2
    cases h2
  | gcm _ _ hg _ _ =>
    obtain ⟨n', i, more', e, rest, _, _, _, he, hpe⟩ := hg
    rw [hp] at hpe
    exact absurd (elemAt_unique hn he hpe).2.1 (by decide)

/-- C78: what follows the octet strings of a ciphertext in parts is silently dropped, if it is not an octet string itself: the message
    decrypts, or fails, or panics, as without it. -/
theorem C78_trailing_parts_ignored {env : CryptEnv} {m m' : P7Msg} {v v' : envelopedTy.interp} (hm : m.enveloped = some v) (hm' : m'.enveloped = some v')
    {o junk x : Bytes} {c c' : RawVal} (hc : c.isCompound = true) (hc' : c'.isCompound = true) (ho : Elem 0 4 false x o) (hb : c.bytes = o) (hb' : c'.bytes = o ++ junk)
    (hj : ¬ ∃ y o' rest, Elem 0 4 false y o' ∧ junk = o' ++ rest) {e : P7Envelope} (he : P7Envelope.of v = { e with content := c })
    (he' : P7Envelope.of v' = { e with content := c' }) (cert : SignCert) (key : RsaKey) :
    decryptMsg env m' cert key = decryptMsg env m cert key := by
  have h1 : CipherIs c x := by
    refine .inr ⟨hc, ?_⟩
    have s : OctetRun [] [] := .stop (by
      rintro ⟨x, o, rest, he, hn⟩
      have := he.ne
      cases o with
      | nil => exact this rfl
      | cons a l => cases hn)
    have := OctetRun.part ho s
    rw [List.append_nil, List.append_nil] at this
    rw [hb]; exact this
  have h2 : CipherIs c' x := by
    refine .inr ⟨hc', ?_⟩
    have := OctetRun.part ho (.stop hj)
    rw [List.append_nil] at this
    rw [hb']; exact this
  unfold decryptMsg
  rw [hm, hm']
  dsimp only
  rw [he, he']
  dsimp only
  cases e.recipients.find? (recipMatches cert) with
  | none => rfl
  | some r =>
    cases key with
    | other => rfl
    | nilRsa => rfl
    | rsa k =>
      dsimp only
      cases env.rsaDecrypt k r.encKey with
      | none => rfl
      | some ck =>
        dsimp only
        rw [decryptContent_eq h1, decryptContent_eq h2]

/-! ## Encrypting -/

/-- C78: exactly when `Encrypt` panics: the contents are encrypted, and a recipient has a public key that is not an RSA key, the content
    key being encrypted for all recipients before it. -/
theorem C78_encrypt_panics_iff {env : CryptEnv} {algorithm : Int} {key iv content : Bytes} {rcps : List (Recip × Bytes)} {p : Panic} :
    encryptMsg env algorithm key iv content rcps = .error p ↔ p = .typeAssertion ∧ (∃ a, encryptContent env algorithm key iv content = .ok a) ∧
      ∃ pre r post, rcps = pre ++ r :: post ∧ r.1.key = .other ∧ ∀ q ∈ pre, ∃ k e, q.1.key = .rsa k ∧ env.rsaEncrypt k q.2 key = some e := by
  have key_iff : ∀ (rnd : Bytes) (k : RsaKey) e, encryptKey env rnd key k = .ok (.ok e) ↔ ∃ n, k = .rsa n ∧ env.rsaEncrypt n rnd key = some e := by
    intro rnd k e
    cases k with
    | other => exact ⟨fun h => (by cases h), fun ⟨_, h, _⟩ => (by cases h)⟩
    | nilRsa => exact ⟨fun h => (by cases h), fun ⟨_, h, _⟩ => (by cases h)⟩
    | rsa n =>
      rw [encryptKey]
      constructor
      · intro h
        cases hr : env.rsaEncrypt n rnd key with
        | none => rw [hr] at h; cases h
        | some y => rw [hr] at h; cases h; exact ⟨n, rfl, hr⟩
      · rintro ⟨n', hn, hr⟩
        cases hn
        rw [hr]
  have key_p : ∀ (rnd : Bytes) (k : RsaKey) q, encryptKey env rnd key k = .error q → k = .other ∧ q = .typeAssertion := by
    intro rnd k q h
    cases k with
    | other => cases h; exact ⟨rfl, rfl⟩
    | nilRsa => cases h
    | rsa n =>
      rw [encryptKey] at h
      cases hr : env.rsaEncrypt n rnd key with
      | none => rw [hr] at h; cases h
      | some y => rw [hr] at h; cases h
  have infos : ∀ rcps : List (Recip × Bytes), recipientInfos env key rcps = .error p ↔ p = .typeAssertion ∧
      ∃ pre r post, rcps = pre ++ r :: post ∧ r.1.key = .other ∧ ∀ q ∈ pre, ∃ k e, q.1.key = .rsa k ∧ env.rsaEncrypt k q.2 key = some e := by
    intro rcps
    induction rcps with
    | nil =>
      constructor
      · intro h; cases h
      · rintro ⟨_, pre, r, post, h, _⟩
        cases pre <;> cases h
    | cons x rest ih =>
      obtain ⟨r, rnd⟩ := x
      rw [recipientInfos]
      constructor
      · intro h
        rcases he : encryptKey env rnd key r.key with q | (e | e)
        · rw [he] at h
          cases h
          obtain ⟨h1, h2⟩ := key_p _ _ _ he
          exact ⟨h2, [], _, rest, rfl, h1, fun q hq => by cases hq⟩
        · rw [he] at h; cases h
        · rw [he] at h
          dsimp only at h
          rcases hr : recipientInfos env key rest with q | (e' | rs)
          · rw [hr] at h
            cases h
            obtain ⟨h1, pre, r', post, rfl, h2, h3⟩ := ih.1 hr
            obtain ⟨n, hn, hne⟩ := (key_iff _ _ _).1 he
            refine ⟨h1, (r, rnd) :: pre, r', post, rfl, h2, ?_⟩
            intro q hq
            rcases List.mem_cons.1 hq with rfl | hq
            · exact ⟨n, e, hn, hne⟩
            · exact h3 q hq
          · rw [hr] at h; cases h
          · rw [hr] at h; cases h
      · rintro ⟨rfl, pre, r', post, h, h2, h3⟩
        cases pre with
        | nil =>
          cases h
          have h2 : r.key = .other := h2
          rw [h2]
          rfl
        | cons y pre =>
          cases h
          obtain ⟨k, e, h4, h5⟩ := h3 _ List.mem_cons_self
          rw [(key_iff rnd r.key e).2 ⟨k, h4, h5⟩]
          dsimp only
          rw [ih.2 ⟨rfl, pre, r', post, rfl, h2, fun q hq => h3 q (List.mem_cons_of_mem _ hq)⟩]
  unfold encryptMsg
  cases hc : encryptContent env algorithm key iv content with
  | error e =>
    constructor
    · intro h; cases h
    · rintro ⟨_, ⟨a, h⟩, _⟩; cases h
  | ok a =>
    obtain ⟨alg, c⟩ := a
    dsimp only
    unfold encryptFor
    constructor
    · intro h
      rcases hr : recipientInfos env key rcps with q | (e | rs)
      · rw [hr] at h
        cases h
        obtain ⟨h1, h2⟩ := (infos rcps).1 hr
        exact ⟨h1, ⟨_, rfl⟩, h2⟩
      · rw [hr] at h; cases h
      · rw [hr] at h; cases h
    · rintro ⟨h1, _, h2⟩
      rw [(infos rcps).2 ⟨h1, h2⟩]

/-- C78: what `Encrypt` makes, for any contents and recipients, is read by `Parse` and decrypted to these contents by every recipient,
    if the ciphers are right and recipients with the same issuer and serial number have the same key; anyone else gets nothing. -/
theorem C78_roundtrip {env : CryptEnv} (hc : CiphersOk env) {algorithm : Int} {key iv content b : Bytes} {rcps : List (Recip × Bytes)}
    (hk : (algorithm = 0 ∧ key.length = 8 ∧ iv.length = 8) ∨ (algorithm = 1 ∧ key.length = 16 ∧ iv.length = 12)) (hi : ∀ r ∈ rcps, IssuerOk r.1.cert)
    (hu : ∀ r ∈ rcps, ∀ r' ∈ rcps, r.1.cert.rawIssuer = r'.1.cert.rawIssuer → r.1.cert.serial = r'.1.cert.serial → r.1.key = r'.1.key)
    (h : encryptMsg env algorithm key iv content rcps = .ok (.ok b)) (hl : b.length < 2 ^ 31) :
    ∃ m, parseMsg env.toCertEnv b = .ok (some m) ∧ (∀ r ∈ rcps, decryptMsg env m r.1.cert r.1.key = .ok (.ok content)) ∧
      ∀ cert : SignCert, (∀ r ∈ rcps, r.1.cert.rawIssuer = cert.rawIssuer → r.1.cert.serial ≠ cert.serial) →
        ∀ k, decryptMsg env m cert k = .ok (.error .noRecipient) := by
  unfold encryptMsg at h
  cases he : encryptContent env algorithm key iv content with
  | error e => rw [he] at h; cases h
  | ok a =>
    obtain ⟨alg, c⟩ := a
    rw [he] at h
    dsimp only at h
    unfold encryptFor at h
    rcases hr : recipientInfos env key rcps with q | (e | rs)
    · rw [hr] at h; cases h
    · rw [hr] at h; cases h
    · rw [hr] at h
      have h := Except.ok.inj h
      obtain ⟨made, rfl, hm⟩ := infos_made hr hi
      -- the encrypted contents
      obtain ⟨oid, tag, p, ct, halg, hcc, hv, ht, ht', hx⟩ : ∃ (oid : List Nat) (tag : Nat) (p ct : Bytes), alg = ⟨oid, ⟨0, tag, false, p, []⟩⟩ ∧
          c = ⟨2, 0, true, tlv 0 false 4 ct, []⟩ ∧ ValidOid oid ∧ tag ≠ 0 ∧ tag < 2 ^ 31 ∧ ContentIs env ⟨oid, readRaw ⟨0, tag, false, p, []⟩⟩ key ct content := by
        unfold encryptContent at he
        rcases hk with ⟨rfl, hk, hv⟩ | ⟨rfl, hk, hv⟩
        · rw [if_pos rfl] at he
          unfold encryptDes at he
          split at he
          · cases he
          · cases hp : padBlock content 8 with
            | error e => rw [hp] at he; cases he
            | ok pd =>
              rw [hp] at he
              have he := Except.ok.inj he
              refine ⟨_, 4, iv, _, (congrArg Prod.fst he).symm, ((congrArg Prod.snd he).symm).trans (encrypted_eq env.toP7Env _), ?_, by decide, by decide, unpad_decrypts hc hk hv hp⟩
              refine ⟨by decide, by decide, by decide, ?_⟩
              decide
        · rw [if_neg (by decide), if_pos rfl] at he
          unfold encryptGcm at he
          split at he
          · cases he
          · cases hp : marshal env.mar gcmParamsTy (([] : Bytes), iv, (16 : Int), ()) with
            | error e => rw [hp] at he; cases he
            | ok ps =>
              rw [hp] at he
              have he := Except.ok.inj he
              refine ⟨_, 16, ps, _, (congrArg Prod.fst he).symm, ((congrArg Prod.snd he).symm).trans (encrypted_eq env.toP7Env _), ?_, by decide, by decide, ?_⟩
              · refine ⟨by decide, by decide, by decide, ?_⟩
                decide
              · exact .gcm rfl (hk ▸ .aes128) (gcm_written hv hp) hv (hc.gcm _ _ _)
      subst halg hcc
      have hb := write_bound rfl h
      have hb' := tlv_length 0 4 false ct
      obtain ⟨⟨rs, hperm, henc⟩, t, hder⟩ := envelope_written (made := made) (fun m hmm => by
          obtain ⟨r, _, hr⟩ := listRel_mem_left hm m hmm
          exact ⟨hr.1, hr.2.1⟩) hv ht ht' (octets_seq (x := ct) (by omega)) h hl
      have hbd : ber2der b = .ok (.ok b) := by
        have := C41_identity_on_der hder hl []
        rwa [List.append_nil] at this
      have hne : b ≠ [] := by
        rintro rfl
        exact absurd hbd (by simp [ber2der])
      have hct := cipherIs_one (ct := ct) (by omega)
      -- who a recipient info is for
      have hfor : ∀ x ∈ rs, ∃ r ∈ rcps, x.serial = some r.1.cert.serial ∧ x.issuer.full = r.1.cert.rawIssuer ∧ ∃ k, r.1.key = .rsa k ∧ env.rsaEncrypt k r.2 key = some x.encKey := by
        intro x hxx
        obtain ⟨m, hmm, rfl⟩ := List.mem_map.1 (hperm.mem_iff.2 hxx)
        obtain ⟨r, hrr, _, _, h3, h4, h5⟩ := listRel_mem_left hm m hmm
        exact ⟨r, hrr, congrArg some h4, h3, h5⟩
      have hparse := envelope_read (ce := env.toCertEnv) henc
      have hmsg : parseMsg env.toCertEnv b = parseMsgDer env.toCertEnv b := by
        unfold parseMsg
        rw [if_neg hne, hbd]
      refine ⟨_, hmsg.trans hparse, ?_, ?_⟩
      rotate_left
      · intro cert hno k
        refine (C78_not_recipient (env := env)).2 _ rfl ?_
        rw [envelope_go]
        intro x hxx hf
        obtain ⟨r, hrr, h1, h2, _⟩ := hfor x hxx
        exact hno r hrr (h2.symm.trans hf.2) (Option.some.inj (h1.symm.trans hf.1))
      · intro r hrr
        obtain ⟨m, hmm, _, _, h3, h4, k, h5, h6⟩ := listRel_mem hm r hrr
        have hxx : m.read ∈ rs := hperm.mem_iff.1 (List.mem_map_of_mem hmm)
        have hf : ForCert r.1.cert m.read := ⟨congrArg some h4, h3⟩
        rw [h5]
        refine (C78_decrypt_iff (env := env) rfl).2 ?_
        rw [envelope_go]
        cases hfi : rs.find? (recipMatches r.1.cert) with
        | none => exact absurd hf (find_none.1 hfi _ hxx)
        | some x =>
          have hfirst := (find_iff (fun _ => recipMatches_iff)).1 hfi
          obtain ⟨r', hr', i1, i2, k', i3, i4⟩ := hfor x (List.mem_of_find?_eq_some hfi)
          obtain ⟨pre, post, _, hfx, _⟩ := id hfirst
          have hkk := hu r hrr r' hr' (hfx.2.symm.trans i2) (Option.some.inj (hfx.1.symm.trans i1))
          rw [h5, i3] at hkk
          cases hkk
          exact ⟨x, key, ct, hfirst, hc.rsa _ _ _ _ i4, hct, hx⟩

/-! ## Examples -/

namespace Toy

/-- Toy ciphers: CBC adds the first byte of the key, GCM puts key and nonce in front, RSA the number of the key and one random byte. -/
def cenv : CryptEnv := { s7env with
  rsaEncrypt := fun k rnd x => some (UInt8.ofNat k :: rnd.headD 0 :: x)
  rsaDecrypt := fun k e => match e with
    | a :: _ :: r => if a = UInt8.ofNat k then some r else none
    | _ => none
  cbcEncrypt := fun _ key _ x => x.map (· + key.headD 0)
  cbcDecrypt := fun _ key _ x => x.map (· - key.headD 0)
  cbcLength := fun _ _ _ _ => List.length_map _
  gcmSeal := fun key nonce x => key ++ (nonce ++ x)
  gcmOpen := fun key nonce x => if x.take (key ++ nonce).length = key ++ nonce then some (x.drop (key ++ nonce).length) else none }

theorem cenv_ok : CiphersOk cenv where
  rsa := by
    intro k rnd x e h
    have h : some (UInt8.ofNat k :: rnd.headD 0 :: x) = some e := h
    cases h
    show (if UInt8.ofNat k = UInt8.ofNat k then some x else none) = some x
    rw [if_pos rfl]
  cbc := by
    intro c key iv x _
    show (x.map (· + key.headD 0)).map (· - key.headD 0) = x
    rw [List.map_map]
    exact (List.map_congr_left (g := id) (fun a _ => by simp [UInt8.add_sub_cancel])).trans (List.map_id _)
  encryptedLength := fun _ _ _ _ => List.length_map _
  gcm := by
    intro key nonce x
    show (if (key ++ (nonce ++ x)).take (key ++ nonce).length = key ++ nonce then some ((key ++ (nonce ++ x)).drop (key ++ nonce).length) else none) = _
    rw [← List.append_assoc, List.take_left', List.drop_left', if_pos rfl] <;> rfl

/-- Two recipients, one of them twice. -/
def crcps : List (Recip × Bytes) := [(⟨xSign, .rsa 5⟩, [1]), (⟨ySign, .rsa 6⟩, [2]), (⟨xSign, .rsa 5⟩, [3])]

def ckey (alg : Int) : Bytes := if alg = 0 then [1, 2, 3, 4, 5, 6, 7, 8] else [1, 2, 3, 4, 5, 6, 7, 8, 9, 10, 11, 12, 13, 14, 15, 16]
def civ (alg : Int) : Bytes := if alg = 0 then [9, 9, 9, 9, 9, 9, 9, 9] else [7, 7, 7, 7, 7, 7, 7, 7, 7, 7, 7, 7]

def crun (alg : Int) : Bytes :=
  match encryptMsg cenv alg (ckey alg) (civ alg) (b!"secret") crcps with
  | .ok (.ok b) => b
  | _ => []

theorem crun_ok {alg : Int} (h : crun alg ≠ []) : encryptMsg cenv alg (ckey alg) (civ alg) (b!"secret") crcps = .ok (.ok (crun alg)) := by
  unfold crun at h ⊢
  rcases he : encryptMsg cenv alg (ckey alg) (civ alg) (b!"secret") crcps with p | (e | b)
  · rw [he] at h; exact absurd rfl h
  · rw [he] at h; exact absurd rfl h
  · rfl

theorem crcps_issuers : ∀ r ∈ crcps, IssuerOk r.1.cert := by
  have h : ∀ c : SignCert, s7certCheck c = true → (parseTagAndLength c.rawIssuer = .ok (⟨0, 16, c.rawIssuer.length - 2, true⟩, c.rawIssuer.drop 2)) → 2 ≤ c.rawIssuer.length → IssuerOk c := by
    intro c h hp hl
    obtain ⟨p, hc, _⟩ := s7cert h
    obtain ⟨hdr, h1, h2⟩ := (header_iff _ _ _).1 hp
    refine ⟨⟨0, 16, true, c.rawIssuer.drop 2, hdr, ?_, h2⟩, ?_⟩
    · rw [List.length_drop]; exact h1
    · obtain ⟨_, _, _, h3, _⟩ := hc; exact h3
  intro r hr
  simp only [crcps, List.mem_cons, List.not_mem_nil, or_false] at hr
  rcases hr with rfl | rfl | rfl
  · exact h _ (by decide +kernel) (by decide +kernel) (by decide +kernel)
  · exact h _ (by decide +kernel) (by decide +kernel) (by decide +kernel)
  · exact h _ (by decide +kernel) (by decide +kernel) (by decide +kernel)

end Toy

/-- C78: the hypotheses of the round trip are met: contents encrypted with DES and with AES-GCM for two recipients (one of them twice). -/
theorem C78_example {alg : Int} (ha : alg = 0 ∨ alg = 1) : ∃ m, parseMsg Toy.ce (Toy.crun alg) = .ok (some m) ∧
    decryptMsg Toy.cenv m Toy.xSign (.rsa 5) = .ok (.ok (b!"secret")) ∧ decryptMsg Toy.cenv m Toy.ySign (.rsa 6) = .ok (.ok (b!"secret")) ∧
    decryptMsg Toy.cenv m { Toy.xSign with serial := 78 } (.rsa 5) = .ok (.error .noRecipient) := by
  have hlen : Toy.crun alg ≠ [] ∧ (Toy.crun alg).length < 10000 := by
    rcases ha with rfl | rfl
    · decide +kernel
    · decide +kernel
  have hk : (alg = 0 ∧ (Toy.ckey alg).length = 8 ∧ (Toy.civ alg).length = 8) ∨ (alg = 1 ∧ (Toy.ckey alg).length = 16 ∧ (Toy.civ alg).length = 12) := by
    rcases ha with rfl | rfl <;> decide
  have hu : ∀ r ∈ Toy.crcps, ∀ r' ∈ Toy.crcps, r.1.cert.rawIssuer = r'.1.cert.rawIssuer → r.1.cert.serial = r'.1.cert.serial → r.1.key = r'.1.key := by decide +kernel
  obtain ⟨m, h1, h2, h3⟩ := C78_roundtrip Toy.cenv_ok hk Toy.crcps_issuers hu (Toy.crun_ok hlen.1) (by omega)
  refine ⟨m, h1, h2 (⟨Toy.xSign, .rsa 5⟩, [1]) (by simp [Toy.crcps]), h2 (⟨Toy.ySign, .rsa 6⟩, [2]) (by simp [Toy.crcps]), ?_⟩
  exact h3 _ (by decide +kernel) _

end Apk
