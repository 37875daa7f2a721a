import Verif.Proofs.Pem
import Verif.Props.CertInfoTop
/-! # C84: encrypted PEM blocks -/
namespace Apk
open Spec

theorem pem_pair {env : PemEnv} (hE : PemEnvOk env) {k : BlockKind} {key : Bytes} (hk : k.keyOk key.length = true) :
    BlockPair (env.blockEnc k key) (env.blockDec k key) k.size :=
  ⟨by cases k <;> decide, fun b => hE.encLen k key b hk, fun b => hE.decLen k key b hk, fun b => hE.decEnc k key b hk, fun b => hE.encDec k key b hk⟩

/-- A block whose header can be read: what `DecryptPEMBlock` computes. -/
theorem decrypt_eq {env : PemEnv} (hE : PemEnvOk env) {b : PemBlock} {pw : Bytes} {num : Int} {name : Bytes} {kind : BlockKind} {ks bs : Nat}
    {hex iv key : Bytes} (hc : PemCipher num name kind ks bs) (hh : mget b.headers (b!"DEK-Info") = some (name ++ b!"," ++ hex))
    (hx : HexOf hex iv) (hi : iv.length = bs) (hk : KeyIsDerived env.md5 pw (iv.take 8) ks key) (hl : bs ∣ b.bytes.length) :
    decryptPem env b pw = .ok (pemUnpad bs (cbcDecBlocks (env.blockDec kind key) bs (b.bytes.length / bs) iv b.bytes)) := by
  obtain ⟨e1, e2, e3, e4, e5⟩ := pemCipher_sizes hc
  have hn : cipherByName name = some ⟨num, name, kind, ks, bs⟩ := byName_iff.2 ⟨rfl, hc⟩
  have hk' : PemAlg.deriveKey env.md5 ⟨num, name, kind, ks, bs⟩ pw (iv.take 8) = key := (deriveKey_iff hE.md5).2 hk
  have hkl : kind.keyOk key.length = true := by rw [hk.1]; exact e2
  have hm : b.bytes.length % kind.size = 0 := by rw [← e1]; exact Nat.mod_eq_zero_of_dvd hl
  unfold decryptPem
  simp only [hh, cutComma_iff.2 ⟨e5, rfl⟩, hn, hexDecode_of hx, hk', hkl]
  rw [if_neg (by simp [hi]), if_neg (by omega), if_neg (by simp), if_neg (by simp [hm])]
  unfold cbcCrypt
  rw [if_neg (by omega), if_neg (by simp [hm])]
  simp only [← e1]

/-- If it gets as far as the padding, the header could be read. -/
theorem decrypt_inv {env : PemEnv} (hE : PemEnvOk env) {b : PemBlock} {pw : Bytes} {r : Except PemErr Bytes} (h : decryptPem env b pw = .ok r)
    (hr : ∀ e, r = .error e → e = .padding ∨ e = .password) :
    ∃ num name kind ks bs hex iv key, PemCipher num name kind ks bs ∧ mget b.headers (b!"DEK-Info") = some (name ++ b!"," ++ hex) ∧
      HexOf hex iv ∧ iv.length = bs ∧ KeyIsDerived env.md5 pw (iv.take 8) ks key ∧ bs ∣ b.bytes.length := by
  unfold decryptPem at h
  cases hd : mget b.headers (b!"DEK-Info") with
  | none => simp only [hd] at h; have := hr _ (Except.ok.inj h).symm; simp at this
  | some dek =>
  simp only [hd] at h
  cases hc : cutComma dek with
  | none => simp only [hc] at h; have := hr _ (Except.ok.inj h).symm; simp at this
  | some p =>
  obtain ⟨mode, hex⟩ := p
  simp only [hc] at h
  cases hn : cipherByName mode with
  | none => simp only [hn] at h; have := hr _ (Except.ok.inj h).symm; simp at this
  | some a =>
  simp only [hn] at h
  cases hx : hexDecode hex with
  | none => simp only [hx] at h; have := hr _ (Except.ok.inj h).symm; simp at this
  | some iv =>
  simp only [hx] at h
  obtain ⟨rfl, ha⟩ := byName_iff.1 hn
  obtain ⟨e1, e2, e3, e4, e5⟩ := pemCipher_sizes ha
  by_cases hi : iv.length = a.blockSize
  case neg => rw [if_pos hi] at h; have := hr _ (Except.ok.inj h).symm; simp at this
  rw [if_neg (by simp [hi]), if_neg (by omega)] at h
  have hk := deriveKey_is hE.md5 a pw (iv.take 8)
  rw [if_neg (by rw [hk.1, e2]; simp)] at h
  by_cases hm : b.bytes.length % a.kind.size = 0
  case neg => rw [if_pos hm] at h; have := hr _ (Except.ok.inj h).symm; simp at this
  exact ⟨_, _, _, _, _, hex, iv, _, ha, by rw [(cutComma_iff.1 hc).2], hexDecode_iff.1 hx, hi, hk, by rw [e1]; exact Nat.dvd_of_mod_eq_zero hm⟩

/-- `DecryptPEMBlock` returns exactly the data that the block is an encryption of, with the cipher and the initialization vector of its header and the
    key that is derived from the password. -/
theorem C84_decrypt_iff {env : PemEnv} (hE : PemEnvOk env) (b : PemBlock) (pw data : Bytes) :
    decryptPem env b pw = .ok (.ok data) ↔ PemEncrypted env b pw data := by
  constructor
  · intro h
    obtain ⟨num, name, kind, ks, bs, hex, iv, key, hc, hh, hx, hi, hk, hl⟩ := decrypt_inv hE h (by simp)
    obtain ⟨e1, e2, e3, e4, e5⟩ := pemCipher_sizes hc
    have hkl : kind.keyOk key.length = true := by rw [hk.1]; exact e2
    have hp := pem_pair hE hkl
    rw [← e1] at hp
    rw [decrypt_eq hE hc hh hx hi hk hl] at h
    refine ⟨num, name, kind, ks, bs, hex, iv, key, _, hc, hh, hx, hi, hk, (pemUnpad_iff (by omega) (by omega)).1 (Except.ok.inj h), ?_⟩
    exact cbc_dec hp _ iv _ hi (Nat.div_mul_cancel hl).symm
  · rintro ⟨num, name, kind, ks, bs, hex, iv, key, padded, hc, hh, hx, hi, hk, hpad, hcbc⟩
    obtain ⟨e1, e2, e3, e4, e5⟩ := pemCipher_sizes hc
    have hkl : kind.keyOk key.length = true := by rw [hk.1]; exact e2
    have hp := pem_pair hE hkl
    rw [← e1] at hp
    obtain ⟨hlen, n, hn⟩ := cbc_length hp hcbc hi
    have hl : bs ∣ b.bytes.length := ⟨n, by rw [hn, Nat.mul_comm]⟩
    rw [decrypt_eq hE hc hh hx hi hk hl]
    have := cbc_dec hp (b.bytes.length / bs) iv b.bytes hi (Nat.div_mul_cancel hl).symm
    rw [cbc_plain_unique hp this hi hcbc, (pemUnpad_iff (by omega) (by omega)).2 hpad]

/-- A block and a password give at most one text. -/
theorem C84_data_unique {env : PemEnv} (hE : PemEnvOk env) {b : PemBlock} {pw data data' : Bytes} (h : PemEncrypted env b pw data)
    (h' : PemEncrypted env b pw data') : data = data' := by
  have := (C84_decrypt_iff hE b pw data).2 h
  rw [(C84_decrypt_iff hE b pw data').2 h'] at this
  exact (Except.ok.inj (Except.ok.inj this)).symm

/-- `IncorrectPasswordError` means exactly: the header can be read, and what comes out with the key of the password is not empty and has no padding. -/
theorem C84_incorrect_iff {env : PemEnv} (hE : PemEnvOk env) (b : PemBlock) (pw : Bytes) :
    decryptPem env b pw = .ok (.error .password) ↔
      ∃ num name kind ks bs hex iv key plain, PemCipher num name kind ks bs ∧ mget b.headers (b!"DEK-Info") = some (name ++ b!"," ++ hex) ∧
        HexOf hex iv ∧ iv.length = bs ∧ KeyIsDerived env.md5 pw (iv.take 8) ks key ∧ Cbc (env.blockEnc kind key) bs iv plain b.bytes ∧
        plain ≠ [] ∧ ¬ ∃ data, PemPadded bs data plain := by
  constructor
  · intro h
    obtain ⟨num, name, kind, ks, bs, hex, iv, key, hc, hh, hx, hi, hk, hl⟩ := decrypt_inv hE h (by simp)
    obtain ⟨e1, e2, e3, e4, e5⟩ := pemCipher_sizes hc
    have hkl : kind.keyOk key.length = true := by rw [hk.1]; exact e2
    have hp := pem_pair hE hkl
    rw [← e1] at hp
    rw [decrypt_eq hE hc hh hx hi hk hl] at h
    have h' := Except.ok.inj h
    refine ⟨num, name, kind, ks, bs, hex, iv, key, _, hc, hh, hx, hi, hk, cbc_dec hp _ iv _ hi (Nat.div_mul_cancel hl).symm, ?_, ?_⟩
    · rcases pemUnpad_error h' with ⟨e, -⟩ | ⟨-, e, -⟩
      · cases e
      · exact e
    · rintro ⟨data, hd⟩
      rw [(pemUnpad_iff (by omega) (by omega)).2 hd] at h'
      cases h'
  · rintro ⟨num, name, kind, ks, bs, hex, iv, key, plain, hc, hh, hx, hi, hk, hcbc, hne, hno⟩
    obtain ⟨e1, e2, e3, e4, e5⟩ := pemCipher_sizes hc
    have hkl : kind.keyOk key.length = true := by rw [hk.1]; exact e2
    have hp := pem_pair hE hkl
    rw [← e1] at hp
    obtain ⟨hlen, n, hn⟩ := cbc_length hp hcbc hi
    have hl : bs ∣ b.bytes.length := ⟨n, by rw [hn, Nat.mul_comm]⟩
    rw [decrypt_eq hE hc hh hx hi hk hl]
    have := cbc_dec hp (b.bytes.length / bs) iv b.bytes hi (Nat.div_mul_cancel hl).symm
    rw [cbc_plain_unique hp this hi hcbc]
    cases hu : pemUnpad bs plain with
    | ok x => exact absurd ⟨x, (pemUnpad_iff (by omega) (by omega)).1 hu⟩ hno
    | error e =>
      rcases pemUnpad_error hu with ⟨-, h⟩ | ⟨rfl, -⟩
      · exact absurd (h.resolve_left hne) (fun h => h ⟨n, by rw [hlen, hn, Nat.mul_comm]⟩)
      · rfl

/-- Neither function panics, for any block, password, data or source of random bytes. -/
theorem C84_no_panic (env : PemEnv) (b : PemBlock) (pw rand type data : Bytes) (alg : Int) :
    (∃ r, decryptPem env b pw = .ok r) ∧ ∃ r, encryptPem env rand type data pw alg = .ok r := by
  constructor
  · unfold decryptPem
    cases mget b.headers (b!"DEK-Info") with
    | none => exact ⟨_, rfl⟩
    | some dek =>
    cases hc : cutComma dek with
    | none => simp only [hc]; exact ⟨_, rfl⟩
    | some p =>
    obtain ⟨mode, hex⟩ := p
    simp only [hc]
    cases hn : cipherByName mode with
    | none => exact ⟨_, rfl⟩
    | some a =>
    cases hx : hexDecode hex with
    | none => exact ⟨_, rfl⟩
    | some iv =>
    obtain ⟨rfl, ha⟩ := byName_iff.1 hn
    obtain ⟨e1, e2, e3, e4, e5⟩ := pemCipher_sizes ha
    simp only
    by_cases hi : iv.length = a.blockSize
    case neg => rw [if_pos hi]; exact ⟨_, rfl⟩
    rw [if_neg (by simp [hi]), if_neg (by omega)]
    by_cases hk : (!a.kind.keyOk (a.deriveKey env.md5 pw (iv.take 8)).length) = true
    · rw [if_pos hk]; exact ⟨_, rfl⟩
    rw [if_neg hk]
    by_cases hm : b.bytes.length % a.kind.size = 0
    case neg => rw [if_pos hm]; exact ⟨_, rfl⟩
    rw [if_neg (by simp [hm])]
    unfold cbcCrypt
    rw [if_neg (by omega), if_neg (by simp [hm])]
    exact ⟨_, rfl⟩
  · unfold encryptPem
    cases hn : cipherByKey alg with
    | none => exact ⟨_, rfl⟩
    | some a =>
    obtain ⟨rfl, ha⟩ := byKey_iff.1 hn
    obtain ⟨e1, e2, e3, e4, e5⟩ := pemCipher_sizes ha
    simp only
    by_cases hr : rand.length < a.blockSize
    · rw [if_pos hr]; exact ⟨_, rfl⟩
    have hi : (rand.take a.blockSize).length = a.blockSize := by rw [List.length_take]; omega
    rw [if_neg hr, if_neg (by omega)]
    by_cases hk : (!a.kind.keyOk (a.deriveKey env.md5 pw ((rand.take a.blockSize).take 8)).length) = true
    · rw [if_pos hk]; exact ⟨_, rfl⟩
    rw [if_neg hk]
    unfold cbcCrypt
    have hmod := Nat.mod_lt data.length (show 0 < a.blockSize by omega)
    rw [if_neg (by omega), if_neg]
    · exact ⟨_, rfl⟩
    · simp only [Classical.not_not, List.length_append, List.length_replicate, ← e1]
      apply Nat.mod_eq_zero_of_dvd
      refine ⟨data.length / a.blockSize + 1, ?_⟩
      have := Nat.div_add_mod data.length a.blockSize
      rw [Nat.mul_add]
      omega

/-- `EncryptPEMBlock` with a known cipher and enough random bytes: the block it returns. -/
theorem encrypt_eq {env : PemEnv} (hE : PemEnvOk env) {rand type data pw : Bytes} {alg : Int} {name : Bytes} {kind : BlockKind} {ks bs : Nat}
    (hc : PemCipher alg name kind ks bs) (hr : bs ≤ rand.length) :
    ∃ key padded ct, KeyIsDerived env.md5 pw ((rand.take bs).take 8) ks key ∧ PemPadded bs data padded ∧
      Cbc (env.blockEnc kind key) bs (rand.take bs) padded ct ∧
      encryptPem env rand type data pw alg = .ok (.ok ⟨type,
        [(b!"Proc-Type", b!"4,ENCRYPTED"), (b!"DEK-Info", name ++ b!"," ++ hexEncode (rand.take bs))], ct⟩) := by
  obtain ⟨e1, e2, e3, e4, e5⟩ := pemCipher_sizes hc
  have hn : cipherByKey alg = some ⟨alg, name, kind, ks, bs⟩ := byKey_iff.2 ⟨rfl, hc⟩
  have hk := deriveKey_is hE.md5 ⟨alg, name, kind, ks, bs⟩ pw ((rand.take bs).take 8)
  have hi : (rand.take bs).length = bs := by rw [List.length_take]; omega
  have hmod := Nat.mod_lt data.length (show 0 < bs by omega)
  have hlen : (data ++ List.replicate (bs - data.length % bs) (UInt8.ofNat (bs - data.length % bs))).length = (data.length / bs + 1) * bs := by
    have := Nat.div_add_mod data.length bs
    rw [Nat.add_mul, Nat.mul_comm]
    simp only [List.length_append, List.length_replicate]
    omega
  refine ⟨_, data ++ List.replicate (bs - data.length % bs) (UInt8.ofNat (bs - data.length % bs)), _, hk,
    ⟨_, by omega, by omega, rfl, ⟨_, by rw [hlen, Nat.mul_comm]⟩⟩, cbc_enc _ _ _ hlen, ?_⟩
  have hkl : kind.keyOk (PemAlg.deriveKey env.md5 ⟨alg, name, kind, ks, bs⟩ pw ((rand.take bs).take 8)).length = true := by rw [hk.1]; exact e2
  unfold encryptPem
  simp only [hn, hkl]
  rw [if_neg (by omega), if_neg (by omega), if_neg (by simp)]
  unfold cbcCrypt
  rw [if_neg (by omega), if_neg (by rw [hlen, ← e1]; simp)]
  simp only [hlen, ← e1]
  rw [Nat.mul_div_cancel _ (by omega)]

/-- `EncryptPEMBlock` succeeds exactly with the five ciphers and a block of random bytes; the result has the type, says with which cipher and
    initialization vector it is encrypted, and is the data encrypted with the password. -/
theorem C84_encrypt_iff {env : PemEnv} (hE : PemEnvOk env) (rand type data pw : Bytes) (alg : Int) (b : PemBlock) :
    encryptPem env rand type data pw alg = .ok (.ok b) ↔
      ∃ name kind ks bs, PemCipher alg name kind ks bs ∧ bs ≤ rand.length ∧ b.type = type ∧
        b.headers = [(b!"Proc-Type", b!"4,ENCRYPTED"), (b!"DEK-Info", name ++ b!"," ++ hexText (rand.take bs))] ∧ PemEncrypted env b pw data := by
  constructor
  · intro h
    cases hn : cipherByKey alg with
    | none => unfold encryptPem at h; simp only [hn] at h; cases h
    | some a =>
      obtain ⟨rfl, ha⟩ := byKey_iff.1 hn
      by_cases hr : rand.length < a.blockSize
      · unfold encryptPem at h
        simp only [hn] at h
        rw [if_pos hr] at h
        cases h
      · obtain ⟨key, padded, ct, h1, h2, h3, h4⟩ := encrypt_eq hE (type := type) (data := data) (pw := pw) ha (Nat.le_of_not_lt hr)
        rw [h4] at h
        obtain rfl := Except.ok.inj (Except.ok.inj h)
        refine ⟨_, _, _, _, ha, Nat.le_of_not_lt hr, rfl, by rw [hexEncode_eq], _, _, _, _, _, _, _, key, padded, ha, ?_, hexEncode_hexOf _, ?_, h1, h2, h3⟩
        · rw [mget_cons, if_neg (by decide), mget_cons, if_pos rfl]
        · rw [List.length_take]; omega
  · rintro ⟨name, kind, ks, bs, hc, hr, ht, hh, num', name', kind', ks', bs', hex, iv, key', padded', hc', hm, hx, hi, hk', hp', hcbc'⟩
    obtain ⟨e1, e2, e3, e4, e5⟩ := pemCipher_sizes hc
    obtain ⟨key, padded, ct, h1, h2, h3, h4⟩ := encrypt_eq hE (type := type) (data := data) (pw := pw) hc hr
    rw [h4]
    rw [hh, mget_cons, if_neg (by decide), mget_cons, if_pos rfl] at hm
    have hm := Option.some.inj hm
    have hcut := cutComma_iff.2 ⟨e5, (show name ++ b!"," ++ hexText (rand.take bs) = _ from rfl)⟩
    rw [show name ++ b!"," ++ hexText (rand.take bs) = name' ++ b!"," ++ hex from hm, cutComma_iff.2 ⟨(pemCipher_sizes hc').2.2.2.2, rfl⟩] at hcut
    obtain ⟨rfl, rfl⟩ := Prod.mk.inj (Option.some.inj hcut)
    obtain ⟨rfl, rfl, rfl, rfl⟩ := pemCipher_name hc' hc
    have hiv : iv = rand.take bs' := by
      have := hexDecode_of hx
      rw [← hexEncode_eq, hexDecode_of (hexEncode_hexOf _)] at this
      exact (Option.some.inj this).symm
    subst hiv
    obtain rfl := derived_unique h1 hk'
    have hpp : padded = padded' := by
      obtain ⟨n, n1, n2, rfl, n3⟩ := h2
      obtain ⟨m, m1, m2, rfl, m3⟩ := hp'
      simp only [List.length_append, List.length_replicate] at n3 m3
      have : n = m := by
        have a1 := Nat.mod_eq_zero_of_dvd n3
        have a2 := Nat.mod_eq_zero_of_dvd m3
        obtain ⟨c, hc⟩ := n3
        obtain ⟨d, hd⟩ := m3
        have : c = d := by
          rcases Nat.lt_trichotomy c d with h | h | h
          · have := Nat.mul_le_mul_left bs' h; rw [Nat.mul_succ] at this; omega
          · exact h
          · have := Nat.mul_le_mul_left bs' h; rw [Nat.mul_succ] at this; omega
        subst this
        omega
      subst this
      rfl
    subst hpp
    have hct := cbc_enc_unique (by omega) h3 hcbc'
    obtain ⟨bt, bh, bb⟩ := b
    simp only at ht hh hct
    subst ht hh hct
    rw [hexEncode_eq]

/-- What `EncryptPEMBlock` returns is marked as encrypted, and `DecryptPEMBlock` with the password gives the data back. -/
theorem C84_round_trip {env : PemEnv} (hE : PemEnvOk env) {rand type data pw : Bytes} {alg : Int} {b : PemBlock}
    (h : encryptPem env rand type data pw alg = .ok (.ok b)) : isEncryptedPem b = true ∧ decryptPem env b pw = .ok (.ok data) := by
  obtain ⟨name, kind, ks, bs, -, -, -, hh, he⟩ := (C84_encrypt_iff hE ..).1 h
  refine ⟨?_, (C84_decrypt_iff hE b pw data).2 he⟩
  unfold isEncryptedPem
  rw [hh, mget_cons, if_neg (by decide), mget_cons, if_pos rfl]
  rfl

/-- It succeeds for all data and passwords. -/
theorem C84_encrypt_succeeds {env : PemEnv} (hE : PemEnvOk env) (rand type data pw : Bytes) {alg : Int} {name : Bytes} {kind : BlockKind} {ks bs : Nat}
    (hc : PemCipher alg name kind ks bs) (hr : bs ≤ rand.length) : ∃ b, encryptPem env rand type data pw alg = .ok (.ok b) := by
  obtain ⟨_, _, _, -, -, -, h⟩ := encrypt_eq hE (type := type) (data := data) (pw := pw) hc hr
  exact ⟨_, h⟩

/-- What is not marked as encrypted is not decrypted. -/
theorem C84_not_encrypted (env : PemEnv) (b : PemBlock) (pw : Bytes) :
    isEncryptedPem b = false ↔ decryptPem env b pw = .ok (.error .noHeader) := by
  unfold isEncryptedPem decryptPem
  cases mget b.headers (b!"DEK-Info") with
  | none => exact ⟨fun _ => rfl, fun _ => rfl⟩
  | some dek =>
    refine ⟨fun h => (by cases h), fun h => ?_⟩
    exfalso
    simp only at h
    cases hc : cutComma dek with
    | none => simp only [hc] at h; cases h
    | some p =>
    simp only [hc] at h
    cases hn : cipherByName p.1 with
    | none => simp only [hn] at h; cases h
    | some a =>
    cases hx : hexDecode p.2 with
    | none => simp only [hn, hx] at h; cases h
    | some iv =>
    simp only [hn, hx] at h
    split at h
    · cases h
    split at h
    · cases h
    split at h
    · cases h
    split at h
    · cases h
    split at h
    · cases h
    next hd =>
      rename_i d _
      have hu := Except.ok.inj h
      rcases pemUnpad_error hu with ⟨e, -⟩ | ⟨e, -⟩ <;> cases e

/-! ## Examples -/

/-- A hash of 16 equal bytes, and a cipher that combines blocks with the key. -/
def toyPem : PemEnv :=
  { md5 := fun b => List.replicate 16 (b.foldl (· + ·) 0)
    blockEnc := fun k key b => xorBytes b (key.take k.size)
    blockDec := fun k key b => xorBytes b (key.take k.size) }

theorem toyPem_ok : PemEnvOk toyPem := by
  have hs : ∀ (k : BlockKind) (key : Bytes), k.keyOk key.length = true → (key.take k.size).length = k.size := by
    intro k key h
    rw [List.length_take]
    cases k <;> simp only [BlockKind.keyOk, decide_eq_true_eq] at h <;> simp only [BlockKind.size] <;> omega
  refine ⟨fun b => by simp [toyPem], ?_, ?_, ?_, ?_⟩
  · intro k key b h hb
    show (xorBytes b (key.take k.size)).length = _
    rw [xor_length (by rw [hs k key h, hb]), hb]
  · intro k key b h hb
    show (xorBytes b (key.take k.size)).length = _
    rw [xor_length (by rw [hs k key h, hb]), hb]
  · intro k key b h hb
    exact xor_xor (by rw [hs k key h, hb])
  · intro k key b h hb
    exact xor_xor (by rw [hs k key h, hb])

def toyPemData : Bytes := [1, 1, 1, 1, 1, 1, 1]
def toyPemBlock : PemBlock :=
  ⟨b!"KEY", [(b!"Proc-Type", b!"4,ENCRYPTED"), (b!"DEK-Info", b!"DES-CBC,0000000000000000")], [4, 4, 4, 4, 4, 4, 4, 4]⟩

/-- Data encrypted with one password is decrypted with another one without error: to other data. -/
theorem C84_wrong_password_undetected :
    encryptPem toyPem (List.replicate 8 0) (b!"KEY") toyPemData [5] 1 = .ok (.ok toyPemBlock) ∧
    decryptPem toyPem toyPemBlock [5] = .ok (.ok toyPemData) ∧
    decryptPem toyPem toyPemBlock [6] = .ok (.ok [2, 2, 2, 2, 2, 2]) ∧
    decryptPem toyPem toyPemBlock [9] = .ok (.error .password) := by
  refine ⟨?_, ?_, ?_, ?_⟩ <;> rfl

end Apk
