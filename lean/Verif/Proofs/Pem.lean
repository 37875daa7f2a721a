import Verif.Spec.Pem
/-! # Lemmas about encrypted PEM blocks -/
namespace Apk
open Spec

/-! ## The table -/

theorem pem_mem {a : PemAlg} : a ∈ pemAlgs ↔ PemCipher a.cipher a.name a.kind a.keySize a.blockSize := by
  constructor
  · intro h
    simp only [pemAlgs, List.mem_cons, List.not_mem_nil, or_false] at h
    rcases h with h | h | h | h | h <;> subst h
    · exact .des
    · exact .tdes
    · exact .aes128
    · exact .aes192
    · exact .aes256
  · obtain ⟨c, n, k, ks, bs⟩ := a
    intro h
    have h' : PemCipher c n k ks bs := h
    cases h' <;> decide

theorem pemCipher_name {c c' : Int} {n : Bytes} {k k' : BlockKind} {ks ks' bs bs' : Nat} (h : PemCipher c n k ks bs) (h' : PemCipher c' n k' ks' bs') :
    c = c' ∧ k = k' ∧ ks = ks' ∧ bs = bs' := by
  have e : ∀ a ∈ pemAlgs, ∀ a' ∈ pemAlgs, a.name = a'.name → a = a' := by decide
  have := e ⟨c, n, k, ks, bs⟩ (pem_mem.2 h) ⟨c', n, k', ks', bs'⟩ (pem_mem.2 h') rfl
  injection this with e1 e2 e3 e4 e5
  exact ⟨e1, e3, e4, e5⟩

theorem byName_iff {name : Bytes} {a : PemAlg} :
    cipherByName name = some a ↔ a.name = name ∧ PemCipher a.cipher a.name a.kind a.keySize a.blockSize := by
  constructor
  · intro h
    exact ⟨by have := List.find?_some h; simpa using this, pem_mem.1 (List.mem_of_find?_eq_some h)⟩
  · rintro ⟨rfl, h⟩
    have e : ∀ a ∈ pemAlgs, cipherByName a.name = some a := by decide
    exact e a (pem_mem.2 h)

theorem byKey_iff {key : Int} {a : PemAlg} :
    cipherByKey key = some a ↔ a.cipher = key ∧ PemCipher a.cipher a.name a.kind a.keySize a.blockSize := by
  constructor
  · intro h
    exact ⟨by have := List.find?_some h; simpa using this, pem_mem.1 (List.mem_of_find?_eq_some h)⟩
  · rintro ⟨rfl, h⟩
    have e : ∀ a ∈ pemAlgs, cipherByKey a.cipher = some a := by decide
    exact e a (pem_mem.2 h)

theorem pemCipher_sizes {c : Int} {n : Bytes} {k : BlockKind} {ks bs : Nat} (h : PemCipher c n k ks bs) :
    bs = k.size ∧ k.keyOk ks = true ∧ 8 ≤ bs ∧ bs ≤ 16 ∧ (44 : UInt8) ∉ n := by
  cases h <;> decide

/-! ## The key -/

theorem deriveLoop_spec {md5 : Bytes → Bytes} (hm : ∀ b, md5 b ≠ []) (pw salt : Bytes) : ∀ (fuel left : Nat) (dg : Bytes), left ≤ fuel →
    (deriveLoop md5 pw salt fuel left dg).length = left ∧
      ∃ ds rest, DerivedDigests md5 pw salt dg ds ∧ ds.flatten = deriveLoop md5 pw salt fuel left dg ++ rest := by
  intro fuel
  induction fuel with
  | zero =>
    intro left dg h
    have : left = 0 := by omega
    subst this
    exact ⟨rfl, [], [], .nil _, rfl⟩
  | succ fuel ih =>
    intro left dg h
    rw [deriveLoop]
    by_cases h0 : left = 0
    · subst h0
      rw [if_pos rfl]
      exact ⟨rfl, [], [], .nil _, rfl⟩
    · rw [if_neg h0]
      have hpos : 0 < (md5 (dg ++ pw ++ salt)).length := List.length_pos_iff.2 (hm _)
      by_cases hl : left ≤ (md5 (dg ++ pw ++ salt)).length
      · obtain ⟨e, -⟩ := ih (left - (md5 (dg ++ pw ++ salt)).length) (md5 (dg ++ pw ++ salt)) (by omega)
        have e' : deriveLoop md5 pw salt fuel (left - (md5 (dg ++ pw ++ salt)).length) (md5 (dg ++ pw ++ salt)) = [] := by
          apply List.eq_nil_of_length_eq_zero; omega
        simp only [e', List.append_nil]
        refine ⟨by rw [List.length_take]; omega, [md5 (dg ++ pw ++ salt)], (md5 (dg ++ pw ++ salt)).drop left, .cons (.nil _), ?_⟩
        rw [List.take_append_drop]; simp
      · obtain ⟨e, ds, rest, e1, e2⟩ := ih (left - (md5 (dg ++ pw ++ salt)).length) (md5 (dg ++ pw ++ salt)) (by omega)
        have et : (md5 (dg ++ pw ++ salt)).take left = md5 (dg ++ pw ++ salt) := List.take_of_length_le (by omega)
        simp only [et]
        refine ⟨by rw [List.length_append, e]; omega, md5 (dg ++ pw ++ salt) :: ds, rest, .cons e1, ?_⟩
        rw [List.flatten_cons, e2]
        exact (List.append_assoc _ _ _).symm

theorem digests_prefix {md5 : Bytes → Bytes} {pw salt : Bytes} : ∀ {prev : Bytes} {ds ds' : List Bytes}, DerivedDigests md5 pw salt prev ds →
    DerivedDigests md5 pw salt prev ds' → ds <+: ds' ∨ ds' <+: ds := by
  intro prev ds ds' h
  induction h generalizing ds' with
  | nil => exact fun _ => .inl List.nil_prefix
  | cons _ ih =>
    intro h'
    cases h' with
    | nil => exact .inr List.nil_prefix
    | cons h' =>
      rcases ih h' with e | e
      · exact .inl (List.cons_prefix_cons.2 ⟨rfl, e⟩)
      · exact .inr (List.cons_prefix_cons.2 ⟨rfl, e⟩)

theorem derived_unique {md5 : Bytes → Bytes} {pw salt k k' : Bytes} {n : Nat} (h : KeyIsDerived md5 pw salt n k) (h' : KeyIsDerived md5 pw salt n k') :
    k = k' := by
  obtain ⟨l, ds, r, d, e⟩ := h
  obtain ⟨l', ds', r', d', e'⟩ := h'
  have key : ∀ {a b x y s t : Bytes}, a = x ++ s → b = y ++ t → x.length = y.length → a <+: b → x = y := by
    rintro a b x y s t rfl rfl hl ⟨u, hu⟩
    rw [List.append_assoc] at hu
    exact List.append_inj_left hu hl
  rcases digests_prefix d d' with ⟨u, hu⟩ | ⟨u, hu⟩
  · exact key e e' (by omega) ⟨u.flatten, by rw [← hu, List.flatten_append]⟩
  · exact (key e' e (by omega) ⟨u.flatten, by rw [← hu, List.flatten_append]⟩).symm

theorem deriveKey_is {md5 : Bytes → Bytes} (hm : ∀ b, md5 b ≠ []) (a : PemAlg) (pw salt : Bytes) : KeyIsDerived md5 pw salt a.keySize (a.deriveKey md5 pw salt) :=
  deriveLoop_spec hm pw salt a.keySize a.keySize [] (Nat.le_refl _)

theorem deriveKey_iff {md5 : Bytes → Bytes} (hm : ∀ b, md5 b ≠ []) {a : PemAlg} {pw salt key : Bytes} :
    a.deriveKey md5 pw salt = key ↔ KeyIsDerived md5 pw salt a.keySize key :=
  ⟨fun h => h ▸ deriveKey_is hm a pw salt, fun h => derived_unique (deriveKey_is hm a pw salt) h⟩

/-! ## Hexadecimal digits -/

theorem hexVal_iff {c : UInt8} {n : Nat} : hexVal c = some n ↔ HexDigitIs c n := by
  constructor
  · intro h
    unfold hexVal at h
    have hc : UInt8.ofNat c.toNat = c := by rw [UInt8.ofNat_toNat]
    split at h
    · obtain rfl := (Option.some.inj h)
      have := HexDigitIs.dec (c.toNat - 48) (by omega)
      rwa [show 48 + (c.toNat - 48) = c.toNat by omega, hc] at this
    · split at h
      · obtain rfl := (Option.some.inj h)
        have := HexDigitIs.low (c.toNat - 97) (by omega)
        rwa [show 97 + (c.toNat - 97) = c.toNat by omega, hc, show 10 + (c.toNat - 97) = c.toNat - 87 by omega] at this
      · split at h
        · obtain rfl := (Option.some.inj h)
          have := HexDigitIs.up (c.toNat - 65) (by omega)
          rwa [show 65 + (c.toNat - 65) = c.toNat by omega, hc, show 10 + (c.toNat - 65) = c.toNat - 55 by omega] at this
        · exact absurd h (by simp)
  · intro h
    cases h with
    | dec n h => exact (by decide : ∀ n : Fin 10, hexVal (UInt8.ofNat (48 + n.1)) = some n.1) ⟨n, h⟩
    | low n h => exact (by decide : ∀ n : Fin 6, hexVal (UInt8.ofNat (97 + n.1)) = some (10 + n.1)) ⟨n, h⟩
    | up n h => exact (by decide : ∀ n : Fin 6, hexVal (UInt8.ofNat (65 + n.1)) = some (10 + n.1)) ⟨n, h⟩

theorem hexDecode_of {s b : Bytes} (h : HexOf s b) : hexDecode s = some b := by
  induction h with
  | nil => rfl
  | cons hx hy _ ih => simp only [hexDecode, hexVal_iff.2 hx, hexVal_iff.2 hy, ih, Option.map_some]

theorem hexDecode_iff : ∀ {s b : Bytes}, hexDecode s = some b ↔ HexOf s b
  | [], b => by
    constructor
    · intro h; obtain rfl := Option.some.inj h; exact .nil
    · exact hexDecode_of
  | [_], b => by
    constructor
    · intro h; cases h
    · exact hexDecode_of
  | c :: d :: s, b => by
    refine ⟨fun h => ?_, hexDecode_of⟩
    rw [hexDecode] at h
    cases hx : hexVal c with
    | none => simp [hx] at h
    | some x =>
      cases hy : hexVal d with
      | none => simp [hx, hy] at h
      | some y =>
        simp only [hx, hy] at h
        cases hr : hexDecode s with
        | none => simp [hr] at h
        | some t =>
          rw [hr] at h
          obtain rfl := Option.some.inj h
          exact .cons (hexVal_iff.1 hx) (hexVal_iff.1 hy) (hexDecode_iff.1 hr)

theorem hexEncode_hexOf : ∀ b : Bytes, HexOf (hexEncode b) b
  | [] => .nil
  | c :: b => by
    have h := hexEncode_hexOf b
    have hb : ∀ n : Fin 256, hexVal (hexDigit (n.1 / 16)) = some (n.1 / 16) ∧ hexVal (hexDigit (n.1 % 16)) = some (n.1 % 16) := by decide +kernel
    have hc := hb ⟨c.toNat, c.toNat_lt⟩
    have := HexOf.cons (hexVal_iff.1 hc.1) (hexVal_iff.1 hc.2) h
    simp only at this
    rw [show 16 * (c.toNat / 16) + c.toNat % 16 = c.toNat by omega, UInt8.ofNat_toNat] at this
    exact this

/-! ## The header -/

theorem cutComma_iff : ∀ {s a b : Bytes}, cutComma s = some (a, b) ↔ (44 : UInt8) ∉ a ∧ s = a ++ b!"," ++ b
  | [], a, b => by
    constructor
    · intro h; cases h
    · rintro ⟨-, h⟩; have := congrArg List.length h; simp at this
  | c :: s, a, b => by
    rw [cutComma]
    by_cases hc : c = 44
    · subst hc
      rw [if_pos rfl]
      constructor
      · intro h
        obtain ⟨rfl, rfl⟩ := Prod.mk.inj (Option.some.inj h)
        exact ⟨by simp, rfl⟩
      · rintro ⟨h, e⟩
        cases a with
        | nil =>
          injection e with _ e
          subst e; rfl
        | cons x a =>
          injection e with e _
          subst e
          exact absurd h (by simp)
    · rw [if_neg hc]
      constructor
      · intro h
        cases hr : cutComma s with
        | none => simp [hr] at h
        | some p =>
          rw [hr] at h
          obtain ⟨rfl, rfl⟩ := Prod.mk.inj (Option.some.inj h)
          obtain ⟨h1, h2⟩ := cutComma_iff.1 hr
          refine ⟨by simp only [List.mem_cons, not_or]; exact ⟨fun e => hc e.symm, h1⟩, by rw [List.cons_append, List.cons_append, ← h2]⟩
      · rintro ⟨h, e⟩
        cases a with
        | nil =>
          injection e with e _
          exact absurd e hc
        | cons x a =>
          injection e with e1 e2
          subst e1
          rw [cutComma_iff.2 ⟨fun hm => h (List.mem_cons_of_mem _ hm), e2⟩]
          rfl

/-! ## CBC mode -/

theorem xor_length {a b : Bytes} (h : a.length = b.length) : (xorBytes a b).length = a.length := by
  rw [xorBytes, List.length_zipWith]; omega

theorem xor_xor : ∀ {a b : Bytes}, a.length = b.length → xorBytes (xorBytes a b) b = a
  | [], [], _ => rfl
  | x :: a, y :: b, h => by
    have := xor_xor (a := a) (b := b) (by simpa using h)
    simp only [xorBytes, List.zipWith_cons_cons] at this ⊢
    rw [this, UInt8.xor_assoc, UInt8.xor_self, UInt8.xor_zero]

/-- A permutation of the blocks of a size, with its inverse. -/
structure BlockPair (E D : Bytes → Bytes) (bs : Nat) : Prop where
  pos : 1 ≤ bs
  encLen : ∀ b, b.length = bs → (E b).length = bs
  decLen : ∀ b, b.length = bs → (D b).length = bs
  decEnc : ∀ b, b.length = bs → D (E b) = b
  encDec : ∀ b, b.length = bs → E (D b) = b

theorem cbc_enc {E : Bytes → Bytes} {bs : Nat} : ∀ (n : Nat) (iv p : Bytes), p.length = n * bs → Cbc E bs iv p (cbcEncBlocks E bs n iv p)
  | 0, iv, p, h => by
    have : p = [] := List.eq_nil_of_length_eq_zero (by omega)
    subst this
    exact .nil iv
  | n + 1, iv, p, h => by
    rw [Nat.succ_mul] at h
    have ht : (p.take bs).length = bs := by rw [List.length_take]; omega
    have := Cbc.cons (E := E) (iv := iv) ht (cbc_enc n (E (xorBytes (p.take bs) iv)) (p.drop bs) (by rw [List.length_drop]; omega))
    rw [List.take_append_drop] at this
    exact this

theorem cbc_dec {E D : Bytes → Bytes} {bs : Nat} (hp : BlockPair E D bs) : ∀ (n : Nat) (iv c : Bytes), iv.length = bs → c.length = n * bs →
    Cbc E bs iv (cbcDecBlocks D bs n iv c) c
  | 0, iv, c, _, h => by
    have : c = [] := List.eq_nil_of_length_eq_zero (by omega)
    subst this
    exact .nil iv
  | n + 1, iv, c, hi, h => by
    rw [Nat.succ_mul] at h
    have ht : (c.take bs).length = bs := by rw [List.length_take]; omega
    have hd := hp.decLen _ ht
    have hx : (xorBytes (D (c.take bs)) iv).length = bs := by rw [xor_length (by omega)]; exact hd
    have hE : E (xorBytes (xorBytes (D (c.take bs)) iv) iv) = c.take bs := by rw [xor_xor (by omega), hp.encDec _ ht]
    have ih := cbc_dec hp n (c.take bs) (c.drop bs) ht (by rw [List.length_drop]; omega)
    have := Cbc.cons (E := E) (iv := iv) (ps := cbcDecBlocks D bs n (c.take bs) (c.drop bs)) (cs := c.drop bs) hx (by
      show Cbc E bs (E (xorBytes (xorBytes (D (c.take bs)) iv) iv)) _ _
      rw [hE]; exact ih)
    have hE' : E (List.zipWith (· ^^^ ·) (xorBytes (D (c.take bs)) iv) iv) = c.take bs := hE
    rw [hE', List.take_append_drop] at this
    exact this

theorem cbc_length {E D : Bytes → Bytes} {bs : Nat} (hp : BlockPair E D bs) {iv p c : Bytes} (h : Cbc E bs iv p c) : iv.length = bs →
    p.length = c.length ∧ ∃ n, c.length = n * bs := by
  induction h with
  | nil => exact fun _ => ⟨rfl, 0, by simp⟩
  | @cons iv p ps cs hl _ ih =>
    intro hi
    have hx : (xorBytes p iv).length = bs := by rw [xor_length (by omega)]; exact hl
    have hE : (E (List.zipWith (· ^^^ ·) p iv)).length = bs := hp.encLen _ hx
    obtain ⟨e, n, en⟩ := ih hE
    exact ⟨by rw [List.length_append, List.length_append, e, hE, hl], n + 1, by rw [List.length_append, hE, en, Nat.succ_mul, Nat.add_comm]⟩

/-- What is encrypted is determined. -/
theorem cbc_plain_unique {E D : Bytes → Bytes} {bs : Nat} (hp : BlockPair E D bs) {iv p c : Bytes} (h : Cbc E bs iv p c) :
    ∀ {p' : Bytes}, iv.length = bs → Cbc E bs iv p' c → p = p' := by
  induction h with
  | nil iv =>
    intro p' hi h'
    have := (cbc_length hp h' hi).1
    exact (List.eq_nil_of_length_eq_zero (by simpa using this)).symm
  | @cons iv p ps cs hl _ ih =>
    intro p' hi h'
    have hx : (xorBytes p iv).length = bs := by rw [xor_length (by omega)]; exact hl
    have hE : (E (xorBytes p iv)).length = bs := hp.encLen _ hx
    generalize hc : E (List.zipWith (· ^^^ ·) p iv) ++ cs = c at h'
    have hE2 : (E (List.zipWith (· ^^^ ·) p iv)).length = bs := hE
    cases h' with
    | nil =>
      have := congrArg List.length hc
      rw [List.length_append, hE2] at this
      have := hp.pos
      simp at *
      omega
    | @cons _ q qs ds hl' h' =>
      have hy : (xorBytes q iv).length = bs := by rw [xor_length (by omega)]; exact hl'
      have hF : (E (List.zipWith (· ^^^ ·) q iv)).length = bs := hp.encLen _ hy
      obtain ⟨e1, e2⟩ := List.append_inj hc (by rw [hE2, hF])
      have e3 : xorBytes p iv = xorBytes q iv := by
        rw [← hp.decEnc _ hx, ← hp.decEnc _ hy]; exact congrArg D e1
      have e4 : p = q := by
        rw [← xor_xor (a := p) (b := iv) (by omega), e3, xor_xor (by omega)]
      subst e4 e2
      rw [ih hE h']

theorem cbc_enc_unique {E : Bytes → Bytes} {bs : Nat} (hb : 1 ≤ bs) {iv p c : Bytes} (h : Cbc E bs iv p c) : ∀ {c' : Bytes}, Cbc E bs iv p c' → c = c' := by
  induction h with
  | nil iv =>
    intro c' h'
    generalize hq : ([] : Bytes) = q at h'
    cases h' with
    | nil => rfl
    | @cons _ p ps cs hl _ =>
      have := congrArg List.length hq
      rw [List.length_append, List.length_nil] at this
      omega
  | @cons iv p ps cs hl _ ih =>
    intro c' h'
    generalize hq : p ++ ps = q at h'
    cases h' with
    | nil =>
      have := congrArg List.length hq
      rw [List.length_append, List.length_nil] at this
      omega
    | @cons _ p' ps' cs' hl' h' =>
      obtain ⟨e1, e2⟩ := List.append_inj hq (by omega)
      subst e1 e2
      rw [ih h']

/-! ## The padding -/

theorem pemUnpad_iff {bs : Nat} (h1 : 1 ≤ bs) (h2 : bs < 256) {d x : Bytes} : pemUnpad bs d = .ok x ↔ PemPadded bs x d := by
  have hlast : ∀ (n : Nat), 1 ≤ n → (x ++ List.replicate n (UInt8.ofNat n)).getD ((x ++ List.replicate n (UInt8.ofNat n)).length - 1) 0 = UInt8.ofNat n := by
    intro n hn
    have hl : (x ++ List.replicate n (UInt8.ofNat n)).length = x.length + n := by simp
    rw [List.getD_eq_getElem?_getD, hl, List.getElem?_append_right (by omega), List.getElem?_replicate, if_pos (by omega)]
    rfl
  constructor
  · intro h
    simp only [pemUnpad] at h
    split at h
    · cases h
    next hd =>
    split at h
    · cases h
    next hl =>
    split at h
    · cases h
    next hz =>
    split at h
    · cases h
    next ha =>
    have hx := Except.ok.inj h
    generalize hn : (d.getD (d.length - 1) 0).toNat = n at *
    have hall : ∀ v ∈ d.drop (d.length - n), v = UInt8.ofNat n := by
      intro v hv
      have := fun hne => ha (List.any_eq_true.2 ⟨v, hv, hne⟩)
      have : v.toNat = n := by simpa using this
      rw [← this, UInt8.ofNat_toNat]
    refine ⟨n, by omega, by omega, ?_, ?_⟩
    · have : d.drop (d.length - n) = List.replicate n (UInt8.ofNat n) := by
        rw [List.eq_replicate_iff]
        exact ⟨by rw [List.length_drop]; omega, hall⟩
      rw [← this, ← hx, List.take_append_drop]
    · exact Nat.dvd_of_mod_eq_zero (by omega)
  · rintro ⟨n, hn1, hn2, rfl, hdvd⟩
    have hl : (x ++ List.replicate n (UInt8.ofNat n)).length = x.length + n := by simp
    have hto : (UInt8.ofNat n).toNat = n := by rw [UInt8.toNat_ofNat']; omega
    simp only [pemUnpad]
    rw [if_neg (by have := Nat.mod_eq_zero_of_dvd hdvd; omega), hlast n hn1, hto, if_neg (by omega), if_neg (by omega)]
    have hdrop : (x ++ List.replicate n (UInt8.ofNat n)).drop ((x ++ List.replicate n (UInt8.ofNat n)).length - n) = List.replicate n (UInt8.ofNat n) :=
      List.drop_left' (by omega)
    have htake : (x ++ List.replicate n (UInt8.ofNat n)).take ((x ++ List.replicate n (UInt8.ofNat n)).length - n) = x := List.take_left' (by omega)
    rw [hdrop, htake, if_neg]
    simp only [List.any_eq_true, decide_eq_true_eq, not_exists, not_and, Classical.not_not]
    intro v hv
    rw [List.eq_of_mem_replicate hv, hto]

theorem pemPadded_unique {bs : Nat} (h1 : 1 ≤ bs) (h2 : bs < 256) {x y d : Bytes} (h : PemPadded bs x d) (h' : PemPadded bs y d) : x = y := by
  have := (pemUnpad_iff h1 h2).2 h
  rw [(pemUnpad_iff h1 h2).2 h'] at this
  exact (Except.ok.inj this).symm

/-- Which error comes with data that is not padded. -/
theorem pemUnpad_error {bs : Nat} {d : Bytes} {e : PemErr} (h : pemUnpad bs d = .error e) :
    (e = .padding ∧ (d = [] ∨ ¬ bs ∣ d.length)) ∨ (e = .password ∧ d ≠ [] ∧ bs ∣ d.length) := by
  simp only [pemUnpad] at h
  split at h
  next hd =>
    refine .inl ⟨(Except.error.inj h).symm, hd.imp List.eq_nil_of_length_eq_zero (fun h hd => h (Nat.mod_eq_zero_of_dvd hd))⟩
  next hd =>
    have hne : d ≠ [] := by rintro rfl; exact hd (.inl rfl)
    have hdv : bs ∣ d.length := Nat.dvd_of_mod_eq_zero (by omega)
    refine .inr ⟨?_, hne, hdv⟩
    split at h
    · exact (Except.error.inj h).symm
    · split at h
      · exact (Except.error.inj h).symm
      · split at h
        · exact (Except.error.inj h).symm
        · cases h

end Apk
