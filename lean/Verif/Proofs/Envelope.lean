import Verif.Spec.Envelope
import Verif.Props.P7Message
import Verif.Props.Asn1
/-! # Decrypting messages -/
namespace Apk
namespace Crypt
open P7M

/-! ## Padding -/

theorem getLastD_eq {d : Bytes} {b : UInt8} (h : d.getLast? = some b) : d.getLastD 0 = b := by
  rw [List.getLastD_eq_getLast?, h]; rfl

theorem getLast_some {d : Bytes} (h : d ≠ []) : d.getLast? = some (d.getLastD 0) := by
  rw [List.getLastD_eq_getLast?, List.getLast?_eq_some_getLast h]; rfl

theorem unpad_iff {d x : Bytes} {k : Nat} (hk : 1 ≤ k) : unpadBlock d k = .ok (.ok x) ↔ d.length % k = 0 ∧ ∃ n, PaddedBy n x d := by
  constructor
  · intro h
    obtain ⟨_, hne, hmod, n, hn, hl, hd⟩ := C43_unpad_sound_partial h
    rw [← Int.natCast_emod] at hmod
    have hl' : d.getLastD 0 = UInt8.ofNat n := by rw [← hl]; simp
    refine ⟨by omega, n, hd, ?_, by omega⟩
    rw [getLast_some hne, hl']
  · rintro ⟨hm, n, hd, hl, hn⟩
    have hne : d ≠ [] := by intro h; rw [h] at hl; cases hl
    have hlen : d.length = x.length + n := by rw [hd]; simp
    have h0 : 0 < d.length := List.length_pos_iff.2 hne
    have hlast : (d.getLastD 0).toNat = n := by
      rw [getLastD_eq hl]
      exact Nat.mod_eq_of_lt hn
    unfold unpadBlock
    rw [if_neg (by omega), if_neg (by rw [Int.toNat_natCast]; omega)]
    dsimp only
    rw [hlast, if_neg (by omega)]
    have e : d.length - n = x.length := by omega
    rw [e]
    have ed : d.drop x.length = List.replicate n (UInt8.ofNat n) := by rw [hd]; exact List.drop_left
    have et : d.take x.length = x := by rw [hd]; exact List.take_left
    rw [ed, et, if_pos (by simp)]

theorem unpad_panics {d : Bytes} {k : Nat} (hk : 1 ≤ k) {p : Panic} :
    unpadBlock d k = .error p ↔ d.length % k = 0 ∧ d.length < (d.getLastD 0).toNat ∧ d ≠ [] ∧ p = .sliceOutOfRange := by
  unfold unpadBlock
  rw [if_neg (by omega), Int.toNat_natCast]
  by_cases h1 : d.length % k ≠ 0 ∨ d.length = 0
  · rw [if_pos h1]
    constructor
    · intro h; cases h
    · rintro ⟨h2, _, h3, _⟩
      have := List.length_pos_iff.2 h3
      omega
  · rw [if_neg h1]
    dsimp only
    have hne : d ≠ [] := by intro h; subst h; simp at h1
    by_cases h2 : d.length < (d.getLastD 0).toNat
    · rw [if_pos h2]
      constructor
      · intro h; cases h; exact ⟨by omega, h2, hne, rfl⟩
      · rintro ⟨_, _, _, rfl⟩; rfl
    · rw [if_neg h2]
      constructor
      · intro h; split at h <;> cases h
      · rintro ⟨_, h, _⟩; omega

/-! ## The ciphertext -/

theorem unmOctets_iff {env : AsnEnv} {b x rest : Bytes} : unmOctets env b = .ok (some (x, rest)) ↔ ∃ o, Elem 0 4 false x o ∧ b = o ++ rest :=
  (unmFirst_iff (t := .octets)).trans reads_octets_iff

theorem unmOctets_total (env : AsnEnv) (b : Bytes) : ∃ r, unmOctets env b = .ok r := unmFirst_total env .octets b

theorem elem_pos {cls tag : Nat} {c : Bool} {x o : Bytes} (h : Elem cls tag c x o) : 0 < o.length := List.length_pos_iff.2 h.ne

/-- With enough fuel the loop ends by itself. -/
theorem octetParts_run (env : AsnEnv) : ∀ (n : Nat) (b : Bytes), b.length < n → ∃ y, octetParts env n b = .ok y ∧ OctetRun b y
  | 0, b, h => by omega
  | n + 1, b, h => by
    rw [octetParts]
    obtain ⟨r, hr⟩ := unmOctets_total env b
    rw [hr]
    cases r with
    | none =>
      refine ⟨[], rfl, .stop ?_⟩
      rintro ⟨x, o, rest, ho, hb⟩
      rw [unmOctets_iff.2 ⟨o, ho, hb⟩] at hr; cases hr
    | some q =>
      obtain ⟨x, rest⟩ := q
      obtain ⟨o, ho, rfl⟩ := unmOctets_iff.1 hr
      have hp := elem_pos ho
      rw [List.length_append] at h
      obtain ⟨y, hy, hrun⟩ := octetParts_run env n rest (by omega)
      dsimp only
      rw [hy]
      exact ⟨_, rfl, .part ho hrun⟩

/-- More fuel makes no difference. -/
theorem octetRun_unique : ∀ {b y y' : Bytes}, OctetRun b y → OctetRun b y' → y = y' := by
  intro b y y' h
  induction h generalizing y' with
  | stop h =>
    intro h'
    cases h' with
    | stop _ => rfl
    | part ho _ => exact absurd ⟨_, _, _, ho, rfl⟩ h
  | @part x o rest y ho _ ih =>
    intro h'
    generalize hb : o ++ rest = b' at h'
    cases h' with
    | stop h => exact absurd ⟨_, _, _, ho, hb.symm⟩ h
    | @part x' o' rest' y' ho' hr' =>
      obtain ⟨_, _, _, e1, _, e2⟩ := elemAt_unique ho ho' hb
      subst e1 e2
      rw [ih hr']

theorem octetParts_fuel (env : AsnEnv) {n n' : Nat} {b : Bytes} (h : b.length < n) (h' : b.length < n') : octetParts env n b = octetParts env n' b := by
  obtain ⟨y, h1, h2⟩ := octetParts_run env n b h
  obtain ⟨y', h1', h2'⟩ := octetParts_run env n' b h'
  rw [h1, h1', octetRun_unique h2 h2']

theorem cipherText_run (env : AsnEnv) (v : RawVal) : ∃ ct, cipherText env v = .ok ct ∧ CipherIs v ct := by
  unfold cipherText
  cases hc : v.isCompound with
  | false => exact ⟨v.bytes, rfl, .inl ⟨hc, rfl⟩⟩
  | true =>
    obtain ⟨y, h1, h2⟩ := octetParts_run env (v.bytes.length + 1) v.bytes (by omega)
    exact ⟨y, h1, .inr ⟨hc, h2⟩⟩

theorem cipherIs_unique {v : RawVal} {ct ct' : Bytes} (h : CipherIs v ct) (h' : CipherIs v ct') : ct = ct' := by
  rcases h with ⟨h1, rfl⟩ | ⟨h1, h2⟩ <;> rcases h' with ⟨h3, rfl⟩ | ⟨h3, h4⟩
  · rfl
  · rw [h1] at h3; cases h3
  · rw [h1] at h3; cases h3
  · exact octetRun_unique h2 h4

/-! ## Algorithms -/

theorem keyOk_iff {k : BlockKind} {n : Nat} : k.keyOk n = true ↔ CipherSizes k k.size n := by
  constructor
  · intro h
    cases k with
    | des => have h : n = 8 := by simpa [BlockKind.keyOk] using h
             subst h; exact .des
    | tdes => have h : n = 24 := by simpa [BlockKind.keyOk] using h
              subst h; exact .tdes
    | aes =>
      have h : n = 16 ∨ n = 24 ∨ n = 32 := by simpa [BlockKind.keyOk] using h
      rcases h with rfl | rfl | rfl
      · exact .aes128
      · exact .aes192
      · exact .aes256
  · intro h
    cases k <;> cases h <;> rfl

theorem sizes_block {k : BlockKind} {bs n : Nat} (h : CipherSizes k bs n) : bs = k.size := by cases h <;> rfl

theorem algOf_cbc {oid : List Nat} {k : BlockKind} : encAlgOf oid = some (.cbc k) ↔ CbcIs oid k := by
  constructor
  · intro h
    unfold encAlgOf at h
    by_cases h1 : oid = [1,3,14,3,2,7]
    · rw [if_pos h1] at h; cases h; subst h1; exact .des
    rw [if_neg h1] at h
    by_cases h2 : oid = [1,2,840,113549,3,7]
    · rw [if_pos h2] at h; cases h; subst h2; exact .tdes
    rw [if_neg h2] at h
    by_cases h3 : oid = [2,16,840,1,101,3,4,1,42]
    · rw [if_pos h3] at h; cases h; subst h3; exact .aes256
    rw [if_neg h3] at h
    by_cases h4 : oid = [2,16,840,1,101,3,4,1,6]
    · rw [if_pos h4] at h; cases h
    rw [if_neg h4] at h
    by_cases h5 : oid = [2,16,840,1,101,3,4,1,2]
    · rw [if_pos h5] at h; cases h; subst h5; exact .aes128
    rw [if_neg h5] at h; cases h
  · intro h; cases h <;> decide

theorem algOf_gcm {oid : List Nat} : encAlgOf oid = some .gcm ↔ oid = gcmOid := by
  constructor
  · intro h
    unfold encAlgOf at h
    by_cases h1 : oid = [1,3,14,3,2,7]
    · rw [if_pos h1] at h; cases h
    rw [if_neg h1] at h
    by_cases h2 : oid = [1,2,840,113549,3,7]
    · rw [if_pos h2] at h; cases h
    rw [if_neg h2] at h
    by_cases h3 : oid = [2,16,840,1,101,3,4,1,42]
    · rw [if_pos h3] at h; cases h
    rw [if_neg h3] at h
    by_cases h4 : oid = [2,16,840,1,101,3,4,1,6]
    · exact h4
    rw [if_neg h4] at h
    by_cases h5 : oid = [2,16,840,1,101,3,4,1,2]
    · rw [if_pos h5] at h; cases h
    rw [if_neg h5] at h; cases h
  · rintro rfl; decide

/-! ## GCM parameters -/

theorem fp_tag4 : parseFP (b!"tag:4") = { tag := some 4 } := by decide

theorem octets4_iff {env : AsnEnv} {x b rest : Bytes} : Reads env .octets { tag := some 4 } x b rest ↔ ∃ o, Elem 2 4 false x o ∧ b = o ++ rest := by
  constructor
  · intro h
    rcases (reads_prim (t := .octets) (by simp) (by simp) (by simp)).1 h with ⟨tl, inner, hl, hp⟩ | ⟨h, _⟩ | ⟨h, _⟩
    · obtain ⟨hdr, e, h1, h3, h2⟩ := hl.plain_inv rfl
      obtain ⟨d1, d2⟩ := h2
      have c2 : tl.cls = 2 ∧ (tl.tag : Int) = 4 := d2
      have c1 : tl.isCompound = false := by
        rcases d1 with h | h
        · cases h
        · exact h
      obtain ⟨cls, tag, len, con⟩ := tl
      simp only at c1 c2 h3
      obtain ⟨rfl, c2⟩ := c2
      obtain rfl : tag = 4 := by omega
      subst c1 h3
      have hp : x = inner := hp
      rw [hp]
      exact ⟨_, ⟨hdr, h1, rfl⟩, e⟩
    · exact absurd (absent_optional h) (by simp)
    · cases h
  · rintro ⟨o, h, rfl⟩
    exact (reads_prim (t := .octets) (by simp) (by simp) (by simp)).2 (.inl ⟨_, _, h.located rfl (present_tag (t := .octets) (k := 4) rfl rfl rfl) rest, rfl⟩)

theorem int_iff {env : AsnEnv} {i : Int} {b rest : Bytes} : Reads env .int {} i b rest ↔ ∃ o, IntElem i o ∧ IsInt64 i ∧ b = o ++ rest := by
  constructor
  · intro h
    rcases (reads_prim (t := .int) (by simp) (by simp) (by simp)).1 h with ⟨tl, inner, hl, hp⟩ | ⟨h, _⟩ | ⟨h, _⟩
    · obtain ⟨hdr, e, h1, h3, h2⟩ := hl.plain_inv rfl
      obtain ⟨d1, d2⟩ := h2
      have c2 : tl.cls = 0 ∧ tl.tag = 2 := by
        rcases d2 with h | h
        · cases h
        · exact h
      have c1 : tl.isCompound = false := by
        rcases d1 with h | h
        · cases h
        · exact h
      obtain ⟨cls, tag, len, con⟩ := tl
      simp only at c1 c2 h3
      obtain ⟨rfl, rfl⟩ := c2
      subst c1 h3
      have hp : MinimalInt inner ∧ twos inner = i ∧ IsInt64 i := hp
      exact ⟨_, ⟨inner, hp.1, hp.2.1, hdr, h1, rfl⟩, hp.2.2, e⟩
    · exact absurd (absent_optional h) (by simp)
    · cases h
  · rintro ⟨o, h, hi, rfl⟩
    exact reads_int plain0 hi h rest

theorem struct_inv {env : AsnEnv} {fs : Fields} {v : (Ty.struct false fs).interp} {b rest : Bytes} (h : Reads env (.struct false fs) {} v b rest) :
    ∃ inner e, Elem 0 16 true inner e ∧ b = e ++ rest ∧ ReadsAll env fs v.2 inner := by
  rw [Reads] at h
  rcases h with ⟨tl, inner, hl, h, _⟩ | ⟨h, _⟩
  · obtain ⟨hdr, e, h1, h3, d1, d2⟩ := hl.plain_inv rfl
    have c2 : tl.cls = 0 ∧ tl.tag = 16 := by
      rcases d2 with h | h
      · cases h
      · exact h
    have c1 : tl.isCompound = true := by
      rcases d1 with h | h
      · cases h
      · exact h
    obtain ⟨cls, tag, len, con⟩ := tl
    simp only at c1 c2 h3
    obtain ⟨rfl, rfl⟩ := c2
    subst c1 h3
    exact ⟨inner, _, ⟨hdr, h1, rfl⟩, e, h⟩
  · exact absurd (absent_optional h) (by simp)

theorem gcmParams_iff {env : AsnEnv} {b nonce : Bytes} {icv : Int} :
    (∃ v rest, unmFirst env gcmParamsTy b = .ok (some (v, rest)) ∧ gcmParamsOf v = (nonce, icv)) ↔ GcmParamsAre b nonce icv := by
  constructor
  · rintro ⟨v, rest, h, he⟩
    obtain ⟨inner, e, h1, h2, h3⟩ := struct_inv (unmFirst_iff.1 h)
    obtain ⟨raw, n, i, ⟨⟩⟩ := v
    have he : ((n, i) : Bytes × Int) = (nonce, icv) := he
    cases he
    obtain ⟨r1, h4, h5⟩ := readsAll_cons.1 h3
    rw [fp_tag4] at h4
    obtain ⟨o, h6, rfl⟩ := octets4_iff.1 h4
    obtain ⟨r2, h7, _⟩ := readsAll_cons.1 h5
    rw [fp_empty] at h7
    obtain ⟨o', h8, h9, rfl⟩ := int_iff.1 h7
    exact ⟨o, o', r2, e, rest, h6, h8, h9, h1, h2⟩
  · rintro ⟨n, i, more, e, rest, h1, h2, h3, h4, rfl⟩
    refine ⟨(([] : Bytes), nonce, icv, ()), rest, unmFirst_iff.2 ?_, rfl⟩
    refine reads_struct (raw := false) (fs := .cons (b!"tag:4") .octets (.cons [] .int .nil)) (h4.located rfl (present_plain (t := gcmParamsTy) plain0 rfl) rest)
      (v := (nonce, icv, ())) ?_
    refine readsAll_cons.2 ⟨i ++ more, ?_, readsAll_cons.2 ⟨more, ?_, readsAll_nil⟩⟩
    · rw [fp_tag4]; exact octets4_iff.2 ⟨n, h1, rfl⟩
    · rw [fp_empty]; exact int_iff.2 ⟨i, h2, h3, rfl⟩

theorem gcmParams_unique {b nonce nonce' : Bytes} {icv icv' : Int} (h : GcmParamsAre b nonce icv) (h' : GcmParamsAre b nonce' icv') : nonce = nonce' ∧ icv = icv' := by
  have env : AsnEnv := ⟨fun _ => true, fun _ => [], fun _ => none, fun _ => none⟩
  obtain ⟨v, r, h1, h2⟩ := (gcmParams_iff (env := env)).2 h
  obtain ⟨v', r', h1', h2'⟩ := (gcmParams_iff (env := env)).2 h'
  have e := Option.some.inj (Except.ok.inj (h1.symm.trans h1'))
  have e1 : v = v' := congrArg Prod.fst e
  subst e1
  rw [h2] at h2'
  simpa using h2'

/-! ## Decrypting -/

theorem decryptGcm_iff {env : CryptEnv} {params key ct x : Bytes} :
    decryptGcm env params key ct = .ok (.ok x) ↔ ∃ nonce, GcmParamsAre params nonce 16 ∧ nonce.length = 12 ∧ env.gcmOpen key nonce ct = some x := by
  unfold decryptGcm
  obtain ⟨r, hr⟩ := unmFirst_total env.toAsnEnv gcmParamsTy params
  rw [hr]
  cases r with
  | none =>
    constructor
    · intro h; cases h
    · rintro ⟨nonce, h, _⟩
      obtain ⟨v, rest, h1, _⟩ := (gcmParams_iff (env := env.toAsnEnv)).2 h
      rw [h1] at hr; cases hr
  | some q =>
    obtain ⟨v, rest⟩ := q
    have hg : GcmParamsAre params (gcmParamsOf v).1 (gcmParamsOf v).2 := gcmParams_iff.1 ⟨v, rest, hr, rfl⟩
    dsimp only
    constructor
    · intro h
      by_cases h1 : (gcmParamsOf v).1.length ≠ 12
      · rw [if_pos h1] at h; cases h
      rw [if_neg h1] at h
      by_cases h2 : (gcmParamsOf v).2 ≠ 16
      · rw [if_pos h2] at h; cases h
      rw [if_neg h2] at h
      cases ho : env.gcmOpen key (gcmParamsOf v).1 ct with
      | none => rw [ho] at h; cases h
      | some y =>
        rw [ho] at h
        cases h
        have e : (gcmParamsOf v).2 = 16 := by omega
        rw [e] at hg
        exact ⟨_, hg, by omega, ho⟩
    · rintro ⟨nonce, h1, h2, h3⟩
      obtain ⟨e1, e2⟩ := gcmParams_unique hg h1
      rw [e1, e2, if_neg (by omega), if_neg (by omega), h3]

theorem decryptGcm_total (env : CryptEnv) (params key ct : Bytes) : ∃ r, decryptGcm env params key ct = .ok r := by
  unfold decryptGcm
  obtain ⟨r, hr⟩ := unmFirst_total env.toAsnEnv gcmParamsTy params
  rw [hr]
  cases r with
  | none => exact ⟨_, rfl⟩
  | some q =>
    dsimp only
    split
    · exact ⟨_, rfl⟩
    · split
      · exact ⟨_, rfl⟩
      · split <;> exact ⟨_, rfl⟩

theorem size_pos (k : BlockKind) : 1 ≤ k.size := by cases k <;> decide

theorem decryptCbc_iff {env : CryptEnv} {k : BlockKind} {iv key ct x : Bytes} :
    decryptCbc env k iv key ct = .ok (.ok x) ↔ iv.length = k.size ∧ ct.length % k.size = 0 ∧ ∃ n, PaddedBy n x (env.cbcDecrypt k key iv ct) := by
  unfold decryptCbc
  by_cases h1 : iv.length ≠ k.size
  · rw [if_pos h1]
    constructor
    · intro h; cases h
    · rintro ⟨h, _⟩; exact absurd h h1
  rw [if_neg h1]
  by_cases h2 : ct.length % k.size ≠ 0
  · rw [if_pos h2]
    constructor
    · intro h; cases h
    · rintro ⟨_, h, _⟩; exact absurd h h2
  rw [if_neg h2]
  have hu := unpad_iff (d := env.cbcDecrypt k key iv ct) (x := x) (size_pos k)
  rw [env.cbcLength] at hu
  constructor
  · intro h
    refine ⟨by omega, by omega, (hu.1 ?_).2⟩
    cases hp : unpadBlock (env.cbcDecrypt k key iv ct) k.size with
    | error p => rw [hp] at h; cases h
    | ok r => cases r with
      | error e => rw [hp] at h; cases h
      | ok y => rw [hp] at h; cases h; rfl
  · rintro ⟨_, h3, h4⟩
    rw [hu.2 ⟨h3, h4⟩]

theorem decryptCbc_panics {env : CryptEnv} {k : BlockKind} {iv key ct : Bytes} {p : Panic} :
    decryptCbc env k iv key ct = .error p ↔ iv.length = k.size ∧ CbcPanics env k iv key ct p := by
  unfold decryptCbc CbcPanics
  by_cases h1 : iv.length ≠ k.size
  · rw [if_pos h1]
    constructor
    · intro h; cases h
    · rintro ⟨h, _⟩; exact absurd h h1
  rw [if_neg h1]
  by_cases h2 : ct.length % k.size ≠ 0
  · rw [if_pos h2]
    constructor
    · intro h; cases h; exact ⟨by omega, .inl ⟨h2, rfl⟩⟩
    · rintro ⟨_, ⟨_, rfl⟩ | ⟨_, h, _⟩⟩
      · rfl
      · exact absurd h h2
  rw [if_neg h2]
  have hu := unpad_panics (d := env.cbcDecrypt k key iv ct) (p := p) (size_pos k)
  rw [env.cbcLength] at hu
  have hne : env.cbcDecrypt k key iv ct ≠ [] ↔ ct ≠ [] := by
    have := env.cbcLength k key iv ct
    rw [← List.length_pos_iff, ← List.length_pos_iff, this]
  rw [hne] at hu
  constructor
  · intro h
    have hp : unpadBlock (env.cbcDecrypt k key iv ct) k.size = .error p := by
      cases hp : unpadBlock (env.cbcDecrypt k key iv ct) k.size with
      | error p => rw [hp] at h; cases h; rfl
      | ok r => cases r with
        | error e => rw [hp] at h; cases h
        | ok y => rw [hp] at h; cases h
    obtain ⟨q1, q2, q3, q4⟩ := hu.1 hp
    exact ⟨by omega, .inr ⟨q3, q1, q2, q4⟩⟩
  · rintro ⟨_, ⟨h, _⟩ | ⟨q3, q1, q2, q4⟩⟩
    · exact absurd h h2
    · rw [hu.2 ⟨q1, q2, q3, q4⟩]

theorem cbcIs_unique {oid : List Nat} {k k' : BlockKind} (h : CbcIs oid k) (h' : CbcIs oid k') : k = k' := by
  have := (algOf_cbc.2 h).symm.trans (algOf_cbc.2 h')
  cases this; rfl

theorem decryptContent_eq {env : CryptEnv} {alg : AlgId} {content : RawVal} {ct : Bytes} (hc : CipherIs content ct) (key : Bytes) :
    decryptContent env alg content key = (match encAlgOf alg.oid with
      | none => .ok (.error .unsupported)
      | some a => if a.block.keyOk key.length = false then .ok (.error .keySize)
        else match a with
          | .gcm => decryptGcm env alg.params.bytes key ct
          | .cbc k => decryptCbc env k alg.params.bytes key ct) := by
  unfold decryptContent
  obtain ⟨ct', h1, h2⟩ := cipherText_run env.toAsnEnv content
  rw [cipherIs_unique h2 hc] at h1
  rw [h1]
  cases encAlgOf alg.oid <;> rfl

theorem decryptContent_iff {env : CryptEnv} {alg : AlgId} {content : RawVal} {ct key x : Bytes} (hc : CipherIs content ct) :
    decryptContent env alg content key = .ok (.ok x) ↔ ContentIs env alg key ct x := by
  rw [decryptContent_eq hc]
  constructor
  · intro h
    cases ha : encAlgOf alg.oid with
    | none => rw [ha] at h; cases h
    | some a =>
      rw [ha] at h
      dsimp only at h
      by_cases hk : a.block.keyOk key.length = false
      · rw [if_pos hk] at h; cases h
      rw [if_neg hk] at h
      have hk : a.block.keyOk key.length = true := by simpa using hk
      have hk := keyOk_iff.1 hk
      cases a with
      | gcm =>
        obtain ⟨nonce, h1, h2, h3⟩ := decryptGcm_iff.1 h
        exact .gcm (algOf_gcm.1 ha) hk h1 h2 h3
      | cbc k =>
        obtain ⟨h1, h2, n, h3⟩ := decryptCbc_iff.1 h
        exact .cbc (algOf_cbc.1 ha) hk h1 h2 h3
  · intro h
    cases h with
    | @cbc k bs n x ha hk hiv hw hp =>
      have e := sizes_block hk
      subst e
      rw [algOf_cbc.2 ha]
      dsimp only
      have hk' : (EncAlg.cbc k).block.keyOk key.length = true := keyOk_iff.2 hk
      rw [hk', if_neg (by simp)]
      exact decryptCbc_iff.2 ⟨hiv, hw, n, hp⟩
    | @gcm nonce x ha hk hp hn ho =>
      rw [algOf_gcm.2 ha]
      dsimp only
      have hk' : EncAlg.gcm.block.keyOk key.length = true := keyOk_iff.2 hk
      rw [hk', if_neg (by simp)]
      exact decryptGcm_iff.2 ⟨nonce, hp, hn, ho⟩

theorem decryptContent_panics {env : CryptEnv} {alg : AlgId} {content : RawVal} {ct key : Bytes} {p : Panic} (hc : CipherIs content ct) :
    decryptContent env alg content key = .error p ↔
      ∃ k, CbcIs alg.oid k ∧ CipherSizes k k.size key.length ∧ alg.params.bytes.length = k.size ∧ CbcPanics env k alg.params.bytes key ct p := by
  rw [decryptContent_eq hc]
  constructor
  · intro h
    cases ha : encAlgOf alg.oid with
    | none => rw [ha] at h; cases h
    | some a =>
      rw [ha] at h
      dsimp only at h
      by_cases hk : a.block.keyOk key.length = false
      · rw [if_pos hk] at h; cases h
      rw [if_neg hk] at h
      have hk : a.block.keyOk key.length = true := by simpa using hk
      have hk := keyOk_iff.1 hk
      cases a with
      | gcm =>
        obtain ⟨r, hr⟩ := decryptGcm_total env alg.params.bytes key ct
        dsimp only at h
        rw [hr] at h; cases h
      | cbc k =>
        obtain ⟨h1, h2⟩ := decryptCbc_panics.1 h
        exact ⟨k, algOf_cbc.1 ha, hk, h1, h2⟩
  · rintro ⟨k, ha, hk, h1, h2⟩
    rw [algOf_cbc.2 ha]
    dsimp only
    have hk' : (EncAlg.cbc k).block.keyOk key.length = true := keyOk_iff.2 hk
    rw [hk', if_neg (by simp)]
    exact decryptCbc_panics.2 ⟨h1, h2⟩

theorem recipMatches_iff {cert : SignCert} {r : P7Recipient} : recipMatches cert r = true ↔ ForCert cert r := by
  unfold recipMatches ForCert
  rw [Bool.and_eq_true, decide_eq_true_iff, decide_eq_true_iff]
  exact and_congr Iff.rfl eq_comm

theorem find_none {cert : SignCert} {rs : List P7Recipient} : rs.find? (recipMatches cert) = none ↔ ∀ r ∈ rs, ¬ ForCert cert r := by
  rw [List.find?_eq_none]
  constructor
  · intro h r hr hf; exact h r hr (recipMatches_iff.2 hf)
  · intro h r hr hf; exact h r hr (recipMatches_iff.1 hf)

end Crypt
end Apk
