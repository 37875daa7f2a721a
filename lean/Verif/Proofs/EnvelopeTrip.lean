import Verif.Proofs.EnvelopeWrite
/-! # Decrypting what was encrypted -/
namespace Apk
namespace Crypt
open P7M P7S Mar

/-- An octet string with an implicit tag. -/
theorem oct4_ok {menv : MarEnv} (v : Bytes) {b : Bytes} (h : makeField menv .octets { tag := some 4 } v = .ok b) : b = tlv 2 false 4 v := by
  have h := (make_leaf (t := .octets) (.inl (by simp [IsLeaf])) v).symm.trans h
  rcases fieldTagged_ok h with ⟨h1, _⟩ | ⟨_, t, t', c, _, _, e1, hset, hc, rfl⟩
  · exact absurd ((omits_required (t := .octets) (mp := { tag := some 4 }) (v := v) rfl rfl).symm.trans h1) (by simp)
  · cases e1
    cases hc
    rcases hset with ⟨h1, _⟩ | ⟨_, rfl⟩
    · cases h1
    · rfl

/-- The parameters that `Encrypt` writes for GCM. -/
theorem gcm_written {menv : MarEnv} {nonce p : Bytes} (hn : nonce.length = 12) (h : marshal menv gcmParamsTy (([] : Bytes), nonce, (16 : Int), ()) = .ok p) :
    GcmParamsAre p nonce 16 := by
  unfold marshal at h
  rw [mp_empty] at h
  obtain ⟨c, h', rfl⟩ := struct_ok (fs := .cons (b!"tag:4") .octets (.cons [] .int .nil)) [] _ h
  obtain ⟨x1, r1, h1, h2, rfl⟩ := cons_ok (t := .octets) (fs := .cons [] .int .nil) _ _ h'
  obtain ⟨x2, r2, h3, h4, rfl⟩ := cons_ok (t := .int) (fs := .nil) _ _ h2
  obtain rfl := nil_ok _ h4
  rw [mp_tag4] at h1
  rw [mp_empty] at h3
  obtain rfl := oct4_ok _ h1
  obtain rfl : x2 = tlv 0 false 2 (encodeInt64 16) := int_ok (.inl rfl) _ h3
  have i16 : IsInt64 16 := by constructor <;> decide
  have e1 : Elem 2 4 false nonce (tlv 2 false 4 nonce) := tlv_elem (by decide) (by decide) (by omega)
  have hl : (tlv 2 false 4 nonce ++ (tlv 0 false 2 (encodeInt64 16) ++ [])).length < 2 ^ 31 := by
    have h1 : (tlv 2 false 4 nonce).length = 14 := by
      unfold tlv encodeTagAndLength
      rw [hn]
      simp [hn]
      decide
    have h2 : (tlv 0 false 2 (encodeInt64 16)).length = 3 := by decide
    rw [List.length_append, List.length_append, h1, h2]
    decide
  exact ⟨_, _, [], _, [], e1, intElem_written i16, i16, tlv_elem (by decide) (by decide) hl, (List.append_nil _).symm⟩

/-- The encrypted contents are not longer than the message. -/
theorem write_bound {env : P7Env} {e : P7Envelope} {ct b : Bytes} (hc : e.content = ⟨2, 0, true, ct, []⟩) (h : writeEnvelope env e = .ok b) : ct.length ≤ b.length := by
  unfold writeEnvelope at h
  cases hi : marshal env.mar envelopedTy e.go with
  | error e => rw [hi] at h; cases h
  | ok inner =>
    rw [hi] at h
    unfold wrapContent at h
    dsimp only at h
    cases hw : marshal env.mar contentInfoTy (([] : Bytes), [1,2,840,113549,1,7,3], (⟨2, 0, true, inner, []⟩ : RawVal), ()) with
    | error e => rw [hw] at h; cases h
    | ok b' =>
      rw [hw] at h
      cases h
      unfold marshal at hw hi
      rw [mp_empty] at hw hi
      obtain ⟨o, ho, rfl⟩ := content_bytes hw
      have l1 := tlv_length 0 16 true (tlv 0 false 6 o ++ tlv 2 true 0 inner)
      have l3 := tlv_length 2 0 true inner
      have l4 : (tlv 0 false 6 o ++ tlv 2 true 0 inner).length = (tlv 0 false 6 o).length + (tlv 2 true 0 inner).length := List.length_append
      obtain ⟨c', h', rfl⟩ := struct_ok (fs := .cons [] .int (.cons (b!"set") (.slice false recipientTy) (.cons [] encContentTy .nil))) [] _ hi
      obtain ⟨x1, r1, h1, h2, rfl⟩ := cons_ok (t := .int) (fs := .cons (b!"set") (.slice false recipientTy) (.cons [] encContentTy .nil)) _ _ h'
      obtain ⟨x2, r2, h3, h4, rfl⟩ := cons_ok (t := .slice false recipientTy) (fs := .cons [] encContentTy .nil) _ _ h2
      obtain ⟨x3, r3, h5, h6, rfl⟩ := cons_ok (t := encContentTy) (fs := .nil) _ _ h4
      rw [mp_empty, hc] at h5
      have l5 := tlv_length 0 16 true (x1 ++ (x2 ++ (x3 ++ r3)))
      have l6 : (x1 ++ (x2 ++ (x3 ++ r3))).length = x1.length + (x2.length + (x3.length + r3.length)) := by simp
      obtain ⟨c, hq, rfl⟩ := struct_ok (fs := .cons [] .oid (.cons [] algIdTy (.cons (b!"tag:0,optional") .rawValue .nil))) []
        (e.contentType, e.alg.go, (⟨2, 0, true, ct, []⟩ : RawVal), ()) h5
      obtain ⟨y1, r1', h1', h2', rfl⟩ := cons_ok (t := .oid) (fs := .cons [] algIdTy (.cons (b!"tag:0,optional") .rawValue .nil)) _ _ hq
      obtain ⟨y2, r2', h3', h4', rfl⟩ := cons_ok (t := algIdTy) (fs := .cons (b!"tag:0,optional") .rawValue .nil) _ _ h2'
      obtain ⟨y3, r3', h5', h6', rfl⟩ := cons_ok (t := .rawValue) (fs := .nil) _ _ h4'
      rw [mp_tag0opt] at h5'
      have hx3 : y3 = tlv 2 true 0 ct := by
        rcases raw_ok _ h5' with ⟨h, _⟩ | ⟨_, rfl⟩
        · exfalso
          have h : (false || (true && eqv (α := RawVal) (⟨2, 0, true, ct, []⟩ : RawVal) {})) = true := h
          simp [eqv] at h
        · rfl
      subst hx3
      have m1 := tlv_length 0 16 true (y1 ++ (y2 ++ (tlv 2 true 0 ct ++ r3')))
      have m2 : (y1 ++ (y2 ++ (tlv 2 true 0 ct ++ r3'))).length = y1.length + (y2.length + ((tlv 2 true 0 ct).length + r3'.length)) := by simp
      have m3 := tlv_length 2 0 true ct
      omega

/-- The octet string of the encrypted contents. -/
theorem marshal_octets {menv : MarEnv} (ct : Bytes) {b : Bytes} (h : marshal menv .octets ct = .ok b) : b = tlv 0 false 4 ct := by
  unfold marshal at h
  rw [mp_empty] at h
  exact oct_ok _ h

theorem marshal_octets_ok {menv : MarEnv} (ct : Bytes) : marshal menv .octets ct = .ok (tlv 0 false 4 ct) := by
  cases h : marshal menv .octets ct with
  | ok b => rw [marshal_octets ct h]
  | error e =>
    exfalso
    unfold marshal at h
    rw [mp_empty] at h
    have h := (make_leaf (t := .octets) (.inl (by simp [IsLeaf])) ct).symm.trans h
    cases h

theorem encrypted_eq (env : P7Env) (ct : Bytes) : marshalEncrypted env ct = ⟨2, 0, true, tlv 0 false 4 ct, []⟩ := by
  unfold marshalEncrypted
  rw [marshal_octets_ok]

theorem cipherIs_one {ct : Bytes} (h : ct.length < 2 ^ 31) : CipherIs (readRaw ⟨2, 0, true, tlv 0 false 4 ct, []⟩) ct := by
  refine .inr ⟨rfl, ?_⟩
  have e : Elem 0 4 false ct (tlv 0 false 4 ct) := tlv_elem (by decide) (by decide) h
  have s : OctetRun [] [] := .stop (by
    rintro ⟨x, o, rest, he, hn⟩
    have := he.ne
    cases o with
    | nil => exact this rfl
    | cons a l => cases hn)
  have := OctetRun.part e s
  rw [List.append_nil, List.append_nil] at this
  exact this

/-- A recipient info made for one of the recipients. -/
def MadeFor (env : CryptEnv) (key : Bytes) (m : MadeR) (r : Recip × Bytes) : Prop :=
  RawElem m.iss ∧ DerSeq m.iss.full ∧ m.iss.full = r.1.cert.rawIssuer ∧ m.n = r.1.cert.serial ∧ ∃ k, r.1.key = .rsa k ∧ env.rsaEncrypt k r.2 key = some m.key

theorem infos_made {env : CryptEnv} {key : Bytes} : ∀ {rcps : List (Recip × Bytes)} {rs : List P7Recipient}, recipientInfos env key rcps = .ok (.ok rs) →
    (∀ r ∈ rcps, IssuerOk r.1.cert) → ∃ made : List MadeR, rs = made.map MadeR.info ∧ ListRel (MadeFor env key) made rcps
  | [], rs, h, _ => by
    cases h
    exact ⟨[], rfl, .nil⟩
  | (r, rnd) :: rest, rs, h, hi => by
    rw [recipientInfos] at h
    rcases he : encryptKey env rnd key r.key with p | (e | e)
    · rw [he] at h; cases h
    · rw [he] at h; cases h
    · rw [he] at h
      dsimp only at h
      rcases hr : recipientInfos env key rest with p | (e' | rs')
      · rw [hr] at h; cases h
      · rw [hr] at h; cases h
      · rw [hr] at h
        cases h
        obtain ⟨made, rfl, hm⟩ := infos_made hr (fun r hr => hi r (List.mem_cons_of_mem _ hr))
        obtain ⟨⟨cls, tag, con, x, hel⟩, hder⟩ := hi _ List.mem_cons_self
        have hk : ∃ k, r.key = .rsa k ∧ env.rsaEncrypt k rnd key = some e := by
          cases hk : r.key with
          | other => rw [hk] at he; cases he
          | nilRsa => rw [hk] at he; cases he
          | rsa k =>
            rw [hk] at he
            refine ⟨k, rfl, ?_⟩
            rw [encryptKey] at he
            cases hen : env.rsaEncrypt k rnd key with
            | none => rw [hen] at he; cases he
            | some y => rw [hen] at he; cases he; rfl
        exact ⟨⟨⟨cls, tag, con, x, r.cert.rawIssuer⟩, r.cert.serial, e⟩ :: made, rfl, .cons ⟨hel, hder, rfl, rfl, hk⟩ hm⟩

theorem unpad_decrypts {env : CryptEnv} (hc : CiphersOk env) {key iv content p : Bytes} (hk : key.length = 8) (hi : iv.length = 8) (h : padBlock content 8 = .ok p) :
    ContentIs env ⟨[1,3,14,3,2,7], readRaw ⟨0, 4, false, iv, []⟩⟩ key (env.cbcEncrypt .des key iv p) content := by
  have hl := (C43_padded_length h).2.2
  have hl' : p.length % 8 = 0 := by omega
  have hd : env.cbcDecrypt .des key iv (env.cbcEncrypt .des key iv p) = p := hc.cbc .des key iv p hl'
  obtain ⟨p', h1, h2⟩ := C43_roundtrip content (bl := 8) (by decide) (by decide)
  rw [h] at h1
  cases h1
  obtain ⟨_, n, hn⟩ := (unpad_iff (k := 8) (by decide)).1 h2
  refine .cbc (n := n) .des (bs := 8) (hk ▸ .des) hi ?_ ?_
  · rw [hc.encryptedLength]; exact hl'
  · show PaddedBy n content (env.cbcDecrypt .des key iv (env.cbcEncrypt .des key iv p))
    rw [hd]; exact hn

end Crypt
end Apk
