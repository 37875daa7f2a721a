import Verif.Proofs.Asn1
/-!
# C42 and C43: DER primitives and PKCS#7 padding

`twos`/`MinimalInt`, `Base128`, `ValidOid` (Spec/Asn1) give the meaning of contents octets.
-/
namespace Apk

/-! ## C42: integers -/

/-- **C42.** `parseInt64` accepts exactly the minimally encoded integers of at most eight bytes and returns their two's
    complement value. -/
theorem C42_parse_int64 (b : Bytes) (i : Int) :
    parseInt64 b = .ok i ↔ MinimalInt b ∧ b.length ≤ 8 ∧ twos b = i := parseInt64_iff b i

/-- **C42.** `parseBigInt` accepts exactly the minimally encoded integers and returns their two's complement value. -/
theorem C42_parse_big_int (b : Bytes) (i : Int) : parseBigInt b = .ok i ↔ MinimalInt b ∧ twos b = i := parseBigInt_iff b i

/-- **C42.** `parseInt32` accepts exactly the minimally encoded integers in the int32 range. -/
theorem C42_parse_int32 (b : Bytes) (i : Int) : parseInt32 b = .ok i ↔ MinimalInt b ∧ twos b = i ∧ IsInt32 i := by
  unfold parseInt32
  cases hc : checkInteger b with
  | error e =>
    have : ¬ MinimalInt b := fun hm => by rw [(checkInteger_ok b).2 hm] at hc; simp at hc
    simp [this]
  | ok u =>
    have hm : MinimalInt b := (checkInteger_ok b).1 (by cases u; exact hc)
    simp only [hm, true_and]
    have hrange : ∀ v, v = wrap32 v ↔ IsInt32 v := by
      intro v
      unfold IsInt32
      constructor
      · intro h; have := wrap32_range v; omega
      · intro h; exact (wrap32_of_range (by omega) (by omega)).symm
    cases hp : parseInt64 b with
    | error e =>
      simp only [reduceCtorEq, false_iff]
      rintro ⟨h1, h2⟩
      have hlen : b.length ≤ 8 := by
        refine Classical.byContradiction (fun hc => ?_)
        have hb := (minimal_bounds hm).2.2 (by omega)
        have e := natCast_pow256 (b.length - 2)
        have : (256 : Nat) ^ 4 ≤ 256 ^ (b.length - 2) := Nat.pow_le_pow_right (by omega) (by omega)
        rw [← e, h1] at hb
        unfold IsInt32 at h2
        omega
      have := (parseInt64_iff b i).2 ⟨hm, hlen, h1⟩
      rw [hp] at this; simp at this
    | ok v =>
      have hv := (parseInt64_iff b v).1 hp
      simp only
      by_cases hr : v = wrap32 v
      · rw [if_neg (by simpa using hr)]
        simp only [Except.ok.injEq, hv.2.2]
        constructor
        · rintro rfl; exact ⟨rfl, (hrange _).1 hr⟩
        · exact fun h => h.1
      · rw [if_pos hr]
        simp only [reduceCtorEq, false_iff, hv.2.2]
        rintro ⟨rfl, h2⟩
        exact hr ((hrange _).2 h2)

/-- **C42.** Round trip of int64 values. -/
theorem C42_int64_roundtrip {i : Int} (h : IsInt64 i) : parseInt64 (encodeInt64 i) = .ok i :=
  (parseInt64_iff _ _).2 (encodeInt64_spec h)

/-- **C42.** The encoding of an int64 is the only byte string parsed to it. -/
theorem C42_int64_canonical {b : Bytes} {i : Int} (h : parseInt64 b = .ok i) (hi : IsInt64 i) : b = encodeInt64 i := by
  have h1 := (parseInt64_iff _ _).1 h
  have h2 := encodeInt64_spec hi
  exact twos_inj h1.1 h2.1 (h1.2.2.trans h2.2.2.symm)

/-- Every value `parseInt64` returns is an int64. -/
theorem C42_int64_range {b : Bytes} {i : Int} (h : parseInt64 b = .ok i) : IsInt64 i := by
  obtain ⟨hm, hl, rfl⟩ := (parseInt64_iff _ _).1 h
  have hb := minimal_bounds hm
  have e := natCast_pow256 (b.length - 1)
  have : (256 : Nat) ^ (b.length - 1) ≤ 256 ^ 7 := Nat.pow_le_pow_right (by omega) (by omega)
  rw [← e] at hb
  unfold IsInt64
  omega

/-- **C42.** Round trip of big integers of any size. -/
theorem C42_big_int_roundtrip (n : Int) : parseBigInt (encodeBigInt n) = .ok n :=
  (parseBigInt_iff _ _).2 (encodeBigInt_spec n)

/-- **C42.** The encoding of a big integer is the only byte string parsed to it. -/
theorem C42_big_int_canonical {b : Bytes} {n : Int} (h : parseBigInt b = .ok n) : b = encodeBigInt n := by
  have h1 := (parseBigInt_iff _ _).1 h
  have h2 := encodeBigInt_spec n
  exact twos_inj h1.1 h2.1 (h1.2.trans h2.2.symm)

example : parseBigInt [0xff, 0x7f] = .ok (-129) ∧ encodeBigInt (-129) = [0xff, 0x7f] ∧ encodeInt64 (-129) = [0xff, 0x7f] ∧
    parseInt64 [0, 0x7f] = .error .integerNotMinimal ∧ encodeBigInt 128 = [0, 128] := by decide

/-! ## C42: base-128 numbers, object identifiers, headers -/

/-- **C42.** Base-128 round trip, whatever follows. -/
theorem C42_base128_roundtrip {n : Nat} (h : n < 2 ^ 31) (rest : Bytes) :
    parseBase128 (encodeBase128 n ++ rest) = .ok (n, rest) := parseBase128_enc h rest

/-- **C42.** An accepted base-128 number has the value its bytes denote, is below 2^31 and at most five bytes long; the
    rest of the input is untouched. -/
theorem C42_base128_sound {b rest : Bytes} {n : Nat} (h : parseBase128 b = .ok (n, rest)) :
    ∃ p, Base128 n p ∧ b = p ++ rest ∧ n < 2 ^ 31 ∧ p.length ≤ 5 := parseBase128_sound h

/-- **C42.** Object identifier round trip. -/
theorem C42_oid_roundtrip {oid : List Nat} (h : ValidOid oid) :
    ∃ b, encodeOid oid = .ok b ∧ parseOid b = .ok (.ok oid) := encodeOid_valid h

/-- **C42.** Exactly the identifiers with two arcs or more whose first arc is 0, 1 (second arc below 40) or 2 can be encoded. -/
theorem C42_oid_encodable_iff (oid : List Nat) :
    (∃ b, encodeOid oid = .ok b) ↔ ∃ first second rest, oid = first :: second :: rest ∧ (first = 2 ∨ (first < 2 ∧ second < 40)) := by
  constructor
  · rintro ⟨b, h⟩
    match oid with
    | [] => cases h
    | [_] => cases h
    | a :: c :: arcs =>
      refine ⟨a, c, arcs, rfl, ?_⟩
      rw [encodeOid] at h
      by_cases hc : 2 < a ∨ (a < 2 ∧ 40 ≤ c)
      · rw [if_pos hc] at h; cases h
      · omega
  · rintro ⟨a, c, arcs, rfl, h⟩
    exact ⟨_, by unfold encodeOid; exact if_neg (by omega)⟩

/-- **C42.** Object identifier parsing never panics (the array it fills is always long enough), and what it returns is a
    valid identifier. -/
theorem C42_oid_sound (b : Bytes) :
    (∃ e, parseOid b = .ok (.error e)) ∨ ∃ oid, parseOid b = .ok (.ok oid) ∧ ValidOid oid := parseOid_sound b

/-- **C42.** Distinct object identifiers have distinct encodings. -/
theorem C42_oid_injective {o o' : List Nat} {b : Bytes} (h : ValidOid o) (h' : ValidOid o')
    (he : encodeOid o = .ok b) (he' : encodeOid o' = .ok b) : o = o' := by
  obtain ⟨c, h1, h2⟩ := encodeOid_valid h
  obtain ⟨c', h1', h2'⟩ := encodeOid_valid h'
  rw [he] at h1
  rw [he'] at h1'
  simp only [Except.ok.injEq] at h1 h1'
  subst h1
  subst h1'
  rw [h2] at h2'
  simpa using h2'

/-- The parser is laxer than DER: a padded arc gives the same identifier (the check is commented out, asn1.go:317-323). -/
theorem C42_noncanonical_oid_accepted :
    parseOid [0x2a, 0x03] = .ok (.ok [1, 2, 3]) ∧ parseOid [0x80, 0x2a, 0x80, 0x03] = .ok (.ok [1, 2, 3]) := by decide

/-- **C42.** Header round trip: class, tag, constructed bit and length, whatever follows. -/
theorem C42_header_roundtrip {t : TagLen} (hc : t.cls < 4) (ht : t.tag < 2 ^ 31) (hl : t.length < 2 ^ 31) (rest : Bytes) :
    parseTagAndLength (encodeTagAndLength t ++ rest) = .ok (t, rest) := parseTagAndLength_enc hc ht hl rest

/-- **C42.** An accepted header has fields in range (no overflow), is at least two bytes long, and leaves the rest of the
    input untouched. -/
theorem C42_header_sound {b : Bytes} {t : TagLen} {rest : Bytes} (h : parseTagAndLength b = .ok (t, rest)) :
    t.cls < 4 ∧ t.tag < 2 ^ 31 ∧ t.length < 2 ^ 31 ∧ ∃ hdr, b = hdr ++ rest ∧ 2 ≤ hdr.length := parseTagAndLength_sound h

/-- **C42.** The length field has the value it denotes: short form, or any long form below 2^31. -/
theorem C42_length_value {b rest : Bytes} {n : Nat} (h : parseDerLength b = .ok (n, rest)) :
    n < 2 ^ 31 ∧ ∃ x p, b = x :: (p ++ rest) ∧
      ((x.toNat < 128 ∧ p = [] ∧ n = x.toNat) ∨ (x.toNat = 128 + p.length ∧ p ≠ [] ∧ n = beNat p)) :=
  parseDerLength_sound h

/-- **C42.** The length written is the DER length. -/
theorem C42_length_is_der {n : Nat} (h : n < 2 ^ 63) : DerLen n (encodeLength n) := encodeLength_der h

example : ValidOid [2, 999, 3] ∧ encodeOid [2, 999, 3] = .ok [0x88, 0x37, 3] := by
  refine ⟨⟨by decide, by decide, by decide, by decide⟩, by decide⟩
example : encodeTagAndLength ⟨2, 1000, 300, true⟩ = [0xbf, 0x87, 0x68, 0x82, 1, 44] := by decide

/-! ## C42: BOOLEAN, BIT STRING, SET OF -/

/-- **C42.** BOOLEAN contents: exactly `00` and `FF`. -/
theorem C42_bool (b : Bytes) (v : Bool) : parseBool b = .ok v ↔ b = encodeBool v := by
  match b with
  | [] => cases v <;> simp [parseBool, encodeBool]
  | x :: y :: r => cases v <;> simp [parseBool, encodeBool]
  | [x] =>
    simp only [parseBool, encodeBool]
    by_cases h0 : x = 0
    · subst h0; cases v <;> simp
    · by_cases h1 : x = 255
      · subst h1; cases v <;> simp
      · cases v <;> simp [h0, h1]

/-- **C42.** BIT STRING contents: exactly the encodings of bit strings whose unused bits are zero, and the parsed value
    re-encodes to the same bytes. -/
theorem C42_bit_string {b : Bytes} {v : BitStr} :
    parseBitString b = .ok v ↔
      encodeBitString v = b ∧ v.bitLength ≤ v.bytes.length * 8 ∧ v.bytes.length * 8 < v.bitLength + 8 ∧
      (∀ x, v.bytes.getLast? = some x → x.toNat % 2 ^ (v.bytes.length * 8 - v.bitLength) = 0) := by
  cases b with
  | nil => simp [parseBitString, encodeBitString]
  | cons p bs =>
    have hpl := p.toNat_lt
    simp only [parseBitString, encodeBitString]
    have hlast : ∀ (h : bs ≠ []), (p :: bs).getLast (by simp) = bs.getLast h := fun h => List.getLast_cons h
    constructor
    · intro h
      split at h
      · simp at h
      · rename_i hc
        simp only [Except.ok.injEq] at h
        subst h
        simp only
        have h1 : p.toNat ≤ 7 := Nat.not_lt.1 (fun h => hc (.inl h))
        have h2 : bs = [] → p.toNat = 0 := fun hb => Nat.eq_zero_of_not_pos (fun h => hc (.inr (.inl ⟨hb, h⟩)))
        have h3 : bs ≠ [] → 1 ≤ bs.length := fun hb => by cases bs <;> simp_all
        have h4 : p.toNat ≤ bs.length * 8 := by
          by_cases hb : bs = []
          · have := h2 hb; omega
          · have := h3 hb; omega
        have e : (8 - (bs.length * 8 - p.toNat) % 8) % 8 = p.toNat := by omega
        refine ⟨by rw [e]; simp, by omega, by omega, ?_⟩
        intro x hx
        have hb : bs ≠ [] := by intro hb; rw [hb] at hx; simp at hx
        have e2 : bs.length * 8 - (bs.length * 8 - p.toNat) = p.toNat := by omega
        rw [e2]
        have : ¬ ((p :: bs).getLast (by simp)).toNat % 2 ^ p.toNat ≠ 0 := fun h => hc (.inr (.inr h))
        rw [hlast hb] at this
        rw [List.getLast?_eq_some_getLast hb, Option.some.injEq] at hx
        rw [← hx]
        omega
    · rintro ⟨h1, h2, h3, h4⟩
      obtain ⟨hp, rfl⟩ := List.cons.inj h1
      have hpn : p.toNat = v.bytes.length * 8 - v.bitLength := by
        rw [← hp, u8_toNat_ofNat]; omega
      rw [if_neg]
      · congr 1
        cases v; simp only at *; congr 1; omega
      · rintro (h | ⟨hb, h⟩ | h)
        · omega
        · rw [hb] at hpn; simp at hpn; omega
        · by_cases hb : v.bytes = []
          · rw [hb] at hpn
            simp only [List.length_nil] at hpn
            rw [show p.toNat = 0 by omega] at h
            omega
          · rw [hlast hb, hpn] at h
            exact h (h4 _ (List.getLast?_eq_some_getLast hb))

example : parseBitString [4, 0xab, 0xc0] = .ok ⟨[0xab, 0xc0], 12⟩ ∧ parseBitString [4, 0xab, 0xc8] = .error .bitPadding := by
  decide

/-- **C42.** A SET OF is encoded the same whatever the order of its elements (so re-encoding the signed attributes of a
    PKCS#7 signer does not depend on their order). -/
theorem C42_set_order_independent {xs ys : List Bytes} (h : xs.Perm ys) : encodeSet xs = encodeSet ys := by
  unfold encodeSet
  rw [setSort_perm h]

/-- **C42.** The SET OF encoding is the concatenation of the element encodings in some order. -/
theorem C42_set_content (xs : List Bytes) : ∃ ys : List Bytes, ys.Perm xs ∧ encodeSet xs = ys.flatten := by
  refine ⟨setSort xs, ?_, rfl⟩
  have ins : ∀ (x : Bytes) (l : List Bytes), (setInsert x l).Perm (x :: l) := by
    intro x l
    induction l with
    | nil => exact .refl _
    | cons y ys ih =>
      rw [setInsert]
      split
      · exact (ih.cons y).trans (.swap x y ys)
      · exact .refl _
  induction xs with
  | nil => exact .refl _
  | cons x xs ih => rw [setSort]; exact (ins x _).trans (ih.cons x)

example : encodeSet [[0x30, 1, 2], [0x30, 1, 1]] = [0x30, 1, 1, 0x30, 1, 2] := by decide

/-! ## C43: padding -/

/-- **C43.** Padding then unpadding returns the data. -/
theorem C43_roundtrip (x : Bytes) {bl : Int} (h1 : 1 ≤ bl) (h2 : bl ≤ 255) :
    ∃ p, padBlock x bl = .ok p ∧ unpadBlock p bl = .ok (.ok x) := by
  obtain ⟨k, rfl⟩ : ∃ k : Nat, bl = k := ⟨bl.toNat, by omega⟩
  have hk1 : 1 ≤ k := by omega
  have hk2 : k ≤ 255 := by omega
  have hm := Nat.mod_lt x.length (show 0 < k by omega)
  unfold padBlock
  rw [if_neg (by omega)]
  refine ⟨_, rfl, ?_⟩
  simp only [Int.toNat_natCast]
  generalize hn : k - x.length % k = n
  have hn1 : 1 ≤ n := by omega
  have hn2 : n ≤ 255 := by omega
  have hlen : (x ++ List.replicate n (UInt8.ofNat n)).length = x.length + n := by simp
  have hdiv : (x.length + n) % k = 0 := by
    have h1 := Nat.div_add_mod x.length k
    have : x.length + n = k * (x.length / k + 1) := by rw [Nat.mul_add]; omega
    rw [this]; exact Nat.mul_mod_right _ _
  have hl : (x ++ List.replicate n (UInt8.ofNat n)).getLastD 0 = UInt8.ofNat n := by
    obtain ⟨m, rfl⟩ : ∃ m, n = m + 1 := ⟨n - 1, by omega⟩
    rw [List.replicate_succ', ← List.append_assoc, List.getLastD_concat]
  have hnat : (UInt8.ofNat n).toNat = n := by rw [u8_toNat_ofNat]; omega
  unfold unpadBlock
  rw [if_neg (by omega), hlen, if_neg (by simp only [Int.toNat_natCast]; omega)]
  simp only [hl, hnat]
  rw [if_neg (by omega)]
  have e : x.length + n - n = x.length := by omega
  rw [e, List.drop_left, List.take_left, if_pos (by simp)]

/-- **C43.** The padded length is a positive multiple of the block size. -/
theorem C43_padded_length {x p : Bytes} {bl : Int} (h : padBlock x bl = .ok p) :
    1 ≤ bl ∧ x.length < p.length ∧ (p.length : Int) % bl = 0 := by
  unfold padBlock at h
  split at h
  · simp at h
  · obtain ⟨k, rfl⟩ : ∃ k : Nat, bl = k := ⟨bl.toNat, by omega⟩
    simp only [Int.toNat_natCast, Except.ok.injEq] at h
    have hm := Nat.mod_lt x.length (show 0 < k by omega)
    subst h
    simp only [List.length_append, List.length_replicate]
    have h1 := Nat.div_add_mod x.length k
    have h2 : x.length + (k - x.length % k) = k * (x.length / k + 1) := by rw [Nat.mul_add]; omega
    refine ⟨by omega, by omega, ?_⟩
    rw [← Int.natCast_emod, h2, Nat.mul_mod_right]; rfl

/-- **C43.** What unpadding accepts: data followed by `n` bytes of value `n`, of a length that is a multiple of the block
    size. What is missing: `n` is not checked to be between 1 and the block size. -/
theorem C43_unpad_sound_partial {d x : Bytes} {bl : Int} (h : unpadBlock d bl = .ok (.ok x)) :
    1 ≤ bl ∧ d ≠ [] ∧ (d.length : Int) % bl = 0 ∧
      ∃ n : Nat, n ≤ 255 ∧ (d.getLastD 0).toNat = n ∧ d = x ++ List.replicate n (UInt8.ofNat n) := by
  unfold unpadBlock at h
  split at h
  · simp at h
  split at h
  · simp at h
  rename_i hbl hlen
  obtain ⟨k, rfl⟩ : ∃ k : Nat, bl = k := ⟨bl.toNat, by omega⟩
  simp only [Int.toNat_natCast] at hlen
  simp only at h
  split at h
  · simp at h
  split at h
  · rename_i hle hall
    simp only [Except.ok.injEq] at h
    subst h
    have hlt := (d.getLastD 0).toNat_lt
    refine ⟨by omega, by intro hd; subst hd; simp at hlen, ?_, _, by omega, rfl, ?_⟩
    · rw [← Int.natCast_emod]; omega
    · generalize hn : (d.getLastD 0).toNat = n at *
      have : d.drop (d.length - n) = List.replicate n (UInt8.ofNat n) := by
        rw [List.eq_replicate_iff]
        refine ⟨by simp; omega, ?_⟩
        intro b hb
        have := List.all_eq_true.1 hall b hb
        simpa using this
      rw [← this, List.take_append_drop]
  · simp at h

/-- **C43.** With a last byte between 1 and the block size, unpadding is the exact inverse of padding. -/
theorem C43_unpad_inverse {d x : Bytes} {bl : Int} (h : unpadBlock d bl = .ok (.ok x))
    (h1 : 1 ≤ (d.getLastD 0).toNat) (h2 : ((d.getLastD 0).toNat : Int) ≤ bl) : padBlock x bl = .ok d := by
  obtain ⟨hb, hne, hmod, n, hn, hl, hd⟩ := C43_unpad_sound_partial h
  rw [hl] at h1 h2
  obtain ⟨k, rfl⟩ : ∃ k : Nat, bl = k := ⟨bl.toNat, by omega⟩
  unfold padBlock
  rw [if_neg (by omega)]
  simp only [Int.toNat_natCast]
  have hlen : d.length = x.length + n := by
    have := congrArg List.length hd
    simpa using this
  have hmod' : (x.length + n) % k = 0 := by rw [← hlen]; rw [← Int.natCast_emod] at hmod; omega
  have hk : k - x.length % k = n := by
    have hm := Nat.mod_lt x.length (show 0 < k by omega)
    have h3 := Nat.div_add_mod x.length k
    have h4 := Nat.div_add_mod (x.length + n) k
    rw [hmod'] at h4
    generalize x.length % k = r at *
    generalize x.length / k = q at *
    generalize (x.length + n) / k = q' at *
    have h5 : k * q' = k * q + (r + n) := by omega
    have h6 : q < q' := by
      refine Classical.byContradiction (fun hc => ?_)
      have : k * q' ≤ k * q := Nat.mul_le_mul_left _ (by omega)
      omega
    have h7 : q' < q + 2 := by
      refine Classical.byContradiction (fun hc => ?_)
      have : k * (q + 2) ≤ k * q' := Nat.mul_le_mul_left _ (by omega)
      rw [Nat.mul_add] at this
      omega
    have h8 : q' = q + 1 := by omega
    rw [h8, Nat.mul_add] at h5
    omega
  rw [hk, ← hd]

/-- The exceptions: a last byte larger than the data panics; a zero last byte or one larger than the block is accepted. -/
theorem C43_malformed_padding_witnesses :
    unpadBlock [1, 2, 3, 9] 4 = .error .sliceOutOfRange ∧
    unpadBlock [1, 2, 3, 0] 4 = .ok (.ok [1, 2, 3, 0]) ∧
    unpadBlock [1, 2, 5, 5, 5, 5, 6, 5] 4 = .ok (.error .padding) ∧
    unpadBlock [1, 5, 5, 5, 5, 5] 3 = .ok (.ok [1]) := by decide

example : padBlock [1, 2, 3] 8 = .ok [1, 2, 3, 5, 5, 5, 5, 5] := by decide

end Apk
