import Verif.Spec.Ber
/-! # Lemmas about BER to DER conversion -/
namespace Apk

/-! ## Lengths -/

theorem beNat_lt (b : Bytes) : beNat b < 256 ^ b.length := by
  induction b with
  | nil => simp [beNat]
  | cons x xs ih =>
    have := x.toNat_lt
    simp only [beNat, List.length_cons, Nat.pow_succ]
    have h1 : x.toNat * 256 ^ xs.length ≤ 255 * 256 ^ xs.length := Nat.mul_le_mul_right _ (by omega)
    omega

theorem readBE_spec (ds rest : Bytes) (acc : Nat) :
    readBE ds.length (ds ++ rest) acc = .ok (acc * 256 ^ ds.length + beNat ds, rest) := by
  induction ds generalizing acc with
  | nil => simp [readBE, beNat]
  | cons d ds ih =>
    simp only [List.length_cons, List.cons_append, readBE, ih, beNat]
    congr 2
    rw [Nat.pow_succ, Nat.add_mul, Nat.add_assoc, Nat.mul_assoc, Nat.mul_comm 256]

theorem readBE_rest {n : Nat} {r : Bytes} {acc v : Nat} {rest : Bytes} (h : readBE n r acc = .ok (v, rest)) :
    rest.length ≤ r.length := by
  induction n generalizing r acc with
  | zero => simp only [readBE, Except.ok.injEq, Prod.mk.injEq] at h; rw [h.2]; exact Nat.le_refl _
  | succ n ih =>
    cases r with
    | nil => simp [readBE] at h
    | cons c r => simp only [readBE] at h; have := ih h; simp only [List.length_cons]; omega

theorem lengthLengthAux_spec (fuel i : Nat) (hf : i ≤ fuel) :
    1 ≤ lengthLengthAux fuel i ∧ i < 256 ^ lengthLengthAux fuel i ∧
    (1 ≤ i → 256 ^ (lengthLengthAux fuel i - 1) ≤ i) := by
  induction fuel generalizing i with
  | zero =>
    have : i = 0 := by omega
    subst this
    simp [lengthLengthAux]
  | succ fuel ih =>
    unfold lengthLengthAux
    split
    · rename_i h
      have ⟨h1, h2, h3⟩ := ih (i / 256) (by omega)
      refine ⟨by omega, ?_, fun _ => ?_⟩
      · rw [Nat.pow_succ]; omega
      · have h4 := h3 (by omega)
        generalize hL : lengthLengthAux fuel (i / 256) = L at *
        cases L with
        | zero => omega
        | succ m =>
          simp only [Nat.add_sub_cancel] at *
          rw [Nat.pow_succ]; omega
    · exact ⟨by omega, by simp; omega, fun h => by simpa using h⟩

theorem lengthLength_spec (n : Nat) :
    1 ≤ lengthLength n ∧ n < 256 ^ lengthLength n ∧ (1 ≤ n → 256 ^ (lengthLength n - 1) ≤ n) :=
  lengthLengthAux_spec n n (Nat.le_refl _)

@[simp] theorem longLength_length (i n : Nat) : (longLength i n).length = n := by
  induction n with
  | zero => rfl
  | succ n ih => simp [longLength, ih]

theorem beNat_longLength (i n : Nat) : beNat (longLength i n) = i % 256 ^ n := by
  induction n with
  | zero => simp [longLength, beNat]; omega
  | succ n ih =>
    have e : (UInt8.ofNat (i / 256 ^ n)).toNat = i / 256 ^ n % 256 := by simp [UInt8.toNat_ofNat']
    rw [longLength, beNat, ih, longLength_length, e, Nat.pow_succ, Nat.mod_mul, Nat.mul_comm]
    omega

theorem lengthLength_le {n : Nat} (h : n < 2 ^ 63) : lengthLength n ≤ 8 := by
  refine Classical.byContradiction (fun hc => ?_)
  have ⟨_, _, h3⟩ := lengthLength_spec n
  by_cases hn : n = 0
  · subst hn
    have : lengthLength 0 = 1 := rfl
    omega
  · have h4 := h3 (by omega)
    have : (256 : Nat) ^ 8 ≤ 256 ^ (lengthLength n - 1) := Nat.pow_le_pow_right (by omega) (by omega)
    omega

/-- The encoder writes the DER length. -/
theorem encodeLength_der {n : Nat} (h : n < 2 ^ 63) : DerLen n (encodeLength n) := by
  unfold encodeLength
  have hl := lengthLength_le h
  split
  · rename_i h1
    have ⟨h2, h3, h4⟩ := lengthLength_spec n
    right
    refine ⟨h1, ?_⟩
    generalize hL : lengthLength n = L at *
    cases L with
    | zero => omega
    | succ m =>
      refine ⟨UInt8.ofNat (128 + (m + 1)), UInt8.ofNat (n / 256 ^ m), longLength n m, ?_, ?_, ?_, rfl⟩
      · simp only [List.length_cons, longLength_length, UInt8.toNat_ofNat']; omega
      · simp only [Nat.add_sub_cancel] at h4
        have h5 : 1 ≤ n / 256 ^ m := (Nat.le_div_iff_mul_le (Nat.pow_pos (by omega))).2 (by simpa using h4 (by omega))
        have h6 : n / 256 ^ m < 256 := by
          rw [Nat.div_lt_iff_lt_mul (Nat.pow_pos (by omega)), Nat.mul_comm, ← Nat.pow_succ]; exact h3
        simp only [UInt8.toNat_ofNat']
        omega
      · have := beNat_longLength n (m + 1)
        rw [Nat.mod_eq_of_lt h3] at this
        exact this
  · left
    exact ⟨by omega, _, by simp only [UInt8.toNat_ofNat']; omega, rfl⟩

/-- A DER length below 2^31 is a BER length the converter accepts. -/
theorem DerLen.ber {n : Nat} {l : Bytes} (h : DerLen n l) (hn : n < 2 ^ 31) : BerLen n l := by
  rcases h with h | ⟨h1, x, d, ds, hx, hd, hb, rfl⟩
  · exact .inl h
  · refine .inr ⟨hn, x, d :: ds, hx, by simp, ?_, hb, rfl⟩
    refine Classical.byContradiction (fun hc => ?_)
    have : 256 ^ ds.length ≤ beNat (d :: ds) := by
      simp only [beNat]
      have := Nat.mul_le_mul_right (256 ^ ds.length) (show 1 ≤ d.toNat by omega)
      omega
    have h2 : (256 : Nat) ^ 4 ≤ 256 ^ ds.length := Nat.pow_le_pow_right (by omega) (by simp at hc; omega)
    rw [hb] at this
    omega

theorem beNat_inj {a b : Bytes} (hl : a.length = b.length) (h : beNat a = beNat b) : a = b := by
  induction a generalizing b with
  | nil => cases b <;> simp_all
  | cons x xs ih =>
    cases b with
    | nil => simp at hl
    | cons y ys =>
      simp only [List.length_cons, Nat.add_right_cancel_iff] at hl
      simp only [beNat, hl] at h
      have h1 := beNat_lt xs
      have h2 := beNat_lt ys
      rw [hl] at h1
      have hp : 0 < 256 ^ ys.length := Nat.pow_pos (by omega)
      have hx : x.toNat = y.toNat := by
        have e1 : (x.toNat * 256 ^ ys.length + beNat xs) / 256 ^ ys.length = x.toNat := by
          rw [Nat.mul_comm, Nat.mul_add_div hp, Nat.div_eq_of_lt h1]; rfl
        have e2 : (y.toNat * 256 ^ ys.length + beNat ys) / 256 ^ ys.length = y.toNat := by
          rw [Nat.mul_comm, Nat.mul_add_div hp, Nat.div_eq_of_lt h2]; rfl
        rw [← e1, ← e2, h]
      have hxy : x = y := UInt8.toNat_inj.1 hx
      subst hxy
      rw [ih hl (by omega)]

/-- DER lengths are unique. -/
theorem DerLen.unique {n : Nat} {l l' : Bytes} (h : DerLen n l) (h' : DerLen n l') : l = l' := by
  rcases h with ⟨h1, x, hx, rfl⟩ | ⟨h1, x, d, ds, hx, hd, hb, rfl⟩ <;>
    rcases h' with ⟨h1', x', hx', rfl⟩ | ⟨h1', x', d', ds', hx', hd', hb', rfl⟩
  · rw [UInt8.toNat_inj.1 (hx.trans hx'.symm)]
  · omega
  · omega
  · have key : ∀ {d d' : UInt8} {ds ds' : Bytes}, d'.toNat ≠ 0 → beNat (d :: ds) = n → beNat (d' :: ds') = n →
        ¬ ds.length < ds'.length := by
      intro d d' ds ds' hd hb hb' hlt
      have e1 := beNat_lt (d :: ds)
      have e2 : 256 ^ ds'.length ≤ beNat (d' :: ds') := by
        simp only [beNat]
        have := Nat.mul_le_mul_right (256 ^ ds'.length) (show 1 ≤ d'.toNat by omega)
        omega
      have e3 : (256 : Nat) ^ (d :: ds).length ≤ 256 ^ ds'.length :=
        Nat.pow_le_pow_right (by omega) (by simp; omega)
      omega
    have k1 := key hd' hb hb'
    have k2 := key hd hb' hb
    have hlen : (d :: ds).length = (d' :: ds').length := by simp; omega
    have e := beNat_inj hlen (hb.trans hb'.symm)
    have : x = x' := UInt8.toNat_inj.1 (by rw [hx, hx', hlen])
    rw [this, e]

theorem readLength_ber {n : Nat} {l : Bytes} (h : BerLen n l) (rest : Bytes) :
    readLength (l ++ rest) = .ok (.ok (some n, rest)) := by
  rcases h with ⟨h1, x, hx, rfl⟩ | ⟨h1, x, ds, hx, h2, h3, hb, rfl⟩
  · simp only [List.cons_append, List.nil_append, readLength]
    rw [if_neg (by omega), if_neg (by omega), hx]
  · simp only [List.cons_append, readLength]
    rw [if_pos (by omega)]
    have hm : x.toNat % 128 = ds.length := by omega
    rw [hm, if_neg (by omega)]
    cases ds with
    | nil => simp at h2
    | cons c cs =>
      simp only [List.cons_append]
      have hneg : ¬ ((c :: cs).length = 4 ∧ 127 < c.toNat) := by
        intro ⟨e1, e2⟩
        have : 128 * 256 ^ cs.length ≤ c.toNat * 256 ^ cs.length := Nat.mul_le_mul_right _ (by omega)
        have e3 : cs.length = 3 := by simpa using e1
        simp only [beNat, e3] at hb
        rw [e3] at this
        omega
      rw [if_neg hneg]
      by_cases hc : c.toNat = 0
      · rw [if_pos hc]
        have := readBE_spec cs rest 0
        simp only [List.length_cons, Nat.add_sub_cancel, this]
        simp only [beNat, hc] at hb
        simp only [Nat.zero_mul, Nat.zero_add] at hb ⊢
        rw [hb]
      · rw [if_neg hc]
        have := readBE_spec (c :: cs) rest 0
        simp only [List.cons_append] at this
        rw [this]
        simp [hb]

theorem readLength_rest {b rest : Bytes} {n : Option Nat} (h : readLength b = .ok (.ok (n, rest))) :
    rest.length + 1 ≤ b.length := by
  cases b with
  | nil => simp [readLength] at h
  | cons l r =>
    simp only [readLength] at h
    split at h
    · split at h
      · simp at h
      · cases r with
        | nil => simp at h
        | cons c r' =>
          simp only at h
          split at h
          · simp at h
          · split at h
            · simp at h
            · rename_i v rest' hr
              simp only [Except.ok.injEq, Prod.mk.injEq] at h
              obtain ⟨-, rfl⟩ := h
              split at hr
              · have := readBE_rest hr; simp; omega
              · have := readBE_rest hr; simp at this ⊢; omega
    · split at h <;>
      · simp only [Except.ok.injEq, Prod.mk.injEq] at h
        rw [h.2]; simp

/-! ## Tags -/

theorem readHighTag_spec (hs : Bytes) (y : UInt8) (rest : Bytes) (h : ∀ c ∈ hs, 128 ≤ c.toNat) (hy : y.toNat < 128) :
    readHighTag (hs ++ y :: rest) = .ok (hs ++ [y], rest) := by
  induction hs with
  | nil => simp only [List.nil_append, readHighTag]; rw [if_neg (by omega)]
  | cons c cs ih =>
    simp only [List.cons_append, readHighTag]
    rw [if_pos (h c (by simp)), ih (fun x hx => h x (by simp [hx]))]

theorem readHighTag_sound {b t rest : Bytes} (h : readHighTag b = .ok (t, rest)) :
    ∃ hs y, (∀ c ∈ hs, 128 ≤ c.toNat) ∧ y.toNat < 128 ∧ t = hs ++ [y] ∧ b = t ++ rest := by
  induction b generalizing t with
  | nil => simp [readHighTag] at h
  | cons c cs ih =>
    simp only [readHighTag] at h
    split at h
    · rename_i hc
      split at h
      · simp at h
      · rename_i t' r' hr
        simp only [Except.ok.injEq, Prod.mk.injEq] at h
        obtain ⟨rfl, rfl⟩ := h
        obtain ⟨hs, y, h1, h2, rfl, rfl⟩ := ih hr
        exact ⟨c :: hs, y, by simpa using ⟨hc, h1⟩, h2, by simp, by simp⟩
    · rename_i hc
      simp only [Except.ok.injEq, Prod.mk.injEq] at h
      obtain ⟨rfl, rfl⟩ := h
      exact ⟨[], c, by simp, by omega, rfl, rfl⟩

theorem readTag_spec {t : Bytes} (h : IsTag t) (rest : Bytes) : readTag (t ++ rest) = .ok (t, rest) := by
  rcases h with ⟨x, hx, rfl⟩ | ⟨x, hs, y, hx, hh, hy, rfl⟩
  · simp only [List.cons_append, List.nil_append, readTag]
    rw [if_neg hx]
  · simp only [List.cons_append, List.append_assoc, List.nil_append, readTag]
    rw [if_pos hx, readHighTag_spec hs y rest hh hy]

theorem readTag_sound {b t rest : Bytes} (h : readTag b = .ok (t, rest)) : IsTag t ∧ b = t ++ rest := by
  cases b with
  | nil => simp [readTag] at h
  | cons x r =>
    simp only [readTag] at h
    split at h
    · rename_i hx
      split at h
      · simp at h
      · rename_i t' r' hr
        simp only [Except.ok.injEq, Prod.mk.injEq] at h
        obtain ⟨rfl, rfl⟩ := h
        obtain ⟨hs, y, h1, h2, rfl, rfl⟩ := readHighTag_sound hr
        exact ⟨.inr ⟨x, hs, y, hx, h1, h2, rfl⟩, by simp⟩
    · rename_i hx
      simp only [Except.ok.injEq, Prod.mk.injEq] at h
      obtain ⟨rfl, rfl⟩ := h
      exact ⟨.inl ⟨x, hx, rfl⟩, rfl⟩

theorem IsTag.pos {t : Bytes} (h : IsTag t) : 1 ≤ t.length := by
  rcases h with ⟨x, hx, rfl⟩ | ⟨x, hs, y, hx, hh, hy, rfl⟩ <;> simp

theorem constructed_con {t : Bytes} (h : ConTag t) : constructed t = true := by
  obtain ⟨-, x, r, rfl, hx⟩ := h
  simp [constructed, hx]

theorem constructed_prim {t : Bytes} (h : PrimTag t) : constructed t = false := by
  obtain ⟨-, x, r, rfl, hx⟩ := h
  simp [constructed, hx]

theorem conTag_of {t : Bytes} (h : IsTag t) (hc : constructed t = true) : ConTag t := by
  refine ⟨h, ?_⟩
  cases t with
  | nil => simp [constructed] at hc
  | cons x r => exact ⟨x, r, rfl, by simpa [constructed] using hc⟩

theorem primTag_of {t : Bytes} (h : IsTag t) (hc : constructed t = false) : PrimTag t := by
  refine ⟨h, ?_⟩
  cases t with
  | nil => have := h.pos; simp at this
  | cons x r => exact ⟨x, r, rfl, by simp [constructed] at hc; omega⟩

/-! ## Reading consumes input; the fuel suffices -/

theorem readObject_rest (fuel : Nat) :
    (∀ b o rest, readObject fuel b = .ok (.ok (o, rest)) → rest.length + 2 ≤ b.length) ∧
    (∀ b k os rest, readKids fuel b k = .ok (.ok (os, rest)) → rest.length ≤ b.length) := by
  induction fuel with
  | zero => exact ⟨fun b o rest h => by simp [readObject] at h, fun b k os rest h => by simp [readKids] at h⟩
  | succ fuel ih =>
    constructor
    · intro b o rest h
      simp only [readObject] at h
      split at h
      · simp at h
      rename_i tag b1 ht
      obtain ⟨htag, rfl⟩ := readTag_sound ht
      have hp := htag.pos
      simp only [List.length_append]
      split at h
      · simp at h
      · simp at h
      · rename_i b2 hl
        have := readLength_rest hl
        split at h
        · split at h
          · simp at h
          · simp at h
          · rename_i kids rest' hk
            have := ih.2 _ _ _ _ hk
            simp only [Except.ok.injEq, Prod.mk.injEq] at h
            rw [← h.2]
            simp only [List.length_drop]
            omega
        · simp at h
      · rename_i n b2 hl
        have := readLength_rest hl
        split at h
        · simp at h
        split at h
        · split at h
          · simp at h
          · simp at h
          · simp only [Except.ok.injEq, Prod.mk.injEq] at h
            rw [← h.2]; simp only [List.length_drop]; omega
        · simp only [Except.ok.injEq, Prod.mk.injEq] at h
          rw [← h.2]; simp only [List.length_drop]; omega
    · intro b k os rest h
      cases k with
      | some k =>
        simp only [readKids] at h
        split at h
        · split at h
          · simp at h
          · simp at h
          · rename_i o r ho
            have := ih.1 _ _ _ ho
            split at h
            · simp at h
            · simp at h
            · rename_i os' r' hk
              have := ih.2 _ _ _ _ hk
              simp only [Except.ok.injEq, Prod.mk.injEq] at h
              rw [← h.2]; omega
        · simp only [Except.ok.injEq, Prod.mk.injEq] at h
          rw [← h.2]; omega
      | none =>
        simp only [readKids] at h
        split at h
        · simp at h
        · simp at h
        · rename_i o r ho
          have := ih.1 _ _ _ ho
          split at h
          · simp at h
          split at h
          · simp only [Except.ok.injEq, Prod.mk.injEq] at h
            rw [← h.2]; omega
          · split at h
            · simp at h
            · simp at h
            · rename_i os' r' hk
              have := ih.2 _ _ _ _ hk
              simp only [Except.ok.injEq, Prod.mk.injEq] at h
              rw [← h.2]; omega

theorem readLength_no_fuel (b : Bytes) : readLength b ≠ .ok (.error .fuel) := by
  cases b with
  | nil => simp [readLength]
  | cons l r =>
    simp only [readLength]
    split
    · split
      · simp
      · cases r with
        | nil => simp
        | cons c r' =>
          simp only
          split
          · simp
          · split <;> simp
    · split <;> simp

theorem readObject_no_fuel (fuel : Nat) :
    (∀ b, b.length < fuel → readObject fuel b ≠ .ok (.error .fuel)) ∧
    (∀ b k, b.length + 1 < fuel → readKids fuel b k ≠ .ok (.error .fuel)) := by
  induction fuel with
  | zero => exact ⟨fun b h => by omega, fun b k h => by omega⟩
  | succ fuel ih =>
    constructor
    · intro b hf h
      simp only [readObject] at h
      split at h
      · simp at h
      rename_i tag b1 ht
      obtain ⟨htag, rfl⟩ := readTag_sound ht
      have hp := htag.pos
      simp only [List.length_append] at hf
      split at h
      · simp at h
      · rename_i e hl
        simp only [Except.ok.injEq, Except.error.injEq] at h
        exact readLength_no_fuel _ (h ▸ hl)
      · rename_i b2 hl
        have := readLength_rest hl
        split at h
        · split at h
          · simp at h
          · rename_i e hk
            simp only [Except.ok.injEq, Except.error.injEq] at h
            exact ih.2 _ _ (by omega) (h ▸ hk)
          · simp at h
        · simp at h
      · rename_i n b2 hl
        have := readLength_rest hl
        split at h
        · simp at h
        split at h
        · split at h
          · simp at h
          · rename_i e hk
            simp only [Except.ok.injEq, Except.error.injEq] at h
            exact ih.2 _ _ (by omega) (h ▸ hk)
          · simp at h
        · simp at h
    · intro b k hf h
      cases k with
      | some k =>
        simp only [readKids] at h
        split at h
        · split at h
          · simp at h
          · rename_i e hk
            simp only [Except.ok.injEq, Except.error.injEq] at h
            exact ih.1 _ (by omega) (h ▸ hk)
          · rename_i o r ho
            have := (readObject_rest fuel).1 _ _ _ ho
            split at h
            · simp at h
            · rename_i e hk
              simp only [Except.ok.injEq, Except.error.injEq] at h
              exact ih.2 _ _ (by omega) (h ▸ hk)
            · simp at h
        · simp at h
      | none =>
        simp only [readKids] at h
        split at h
        · simp at h
        · rename_i e hk
          simp only [Except.ok.injEq, Except.error.injEq] at h
          exact ih.1 _ (by omega) (h ▸ hk)
        · rename_i o r ho
          have := (readObject_rest fuel).1 _ _ _ ho
          split at h
          · simp at h
          split at h
          · simp at h
          · split at h
            · simp at h
            · rename_i e hk
              simp only [Except.ok.injEq, Except.error.injEq] at h
              exact ih.2 _ _ (by omega) (h ▸ hk)
            · simp at h

/-- The model's fuel never runs out. -/
theorem ber2der_no_fuel (b : Bytes) : ber2der b ≠ .ok (.error .fuel) := by
  unfold ber2der
  split
  · simp
  · split
    · simp
    · rename_i e h
      intro hc
      simp only [Except.ok.injEq, Except.error.injEq] at hc
      exact (readObject_no_fuel _).1 b (by omega) (hc ▸ h)
    · simp

/-! ## Completeness on BER encodings -/

theorem BerLen.pos {n : Nat} {l : Bytes} (h : BerLen n l) : 1 ≤ l.length := by
  rcases h with ⟨h1, x, hx, rfl⟩ | ⟨h1, x, ds, hx, h2, h3, hb, rfl⟩ <;> simp

theorem BerEnc.pos {o : Asn1} {b : Bytes} (h : BerEnc o b) : 2 ≤ b.length := by
  cases h with
  | prim ht hl => have := ht.1.pos; have := hl.pos; simp only [List.length_append]; omega
  | con ht hk hl => have := ht.1.pos; have := hl.pos; simp only [List.length_append]; omega
  | indef ht hk hne hno => have := ht.1.pos; simp only [List.length_append, List.length_cons]; omega

/-- An encoding that is not of an end-of-contents value does not start with two zero bytes. -/
theorem BerEnc.not_eoc {o : Asn1} {b : Bytes} (h : BerEnc o b) (hno : ∀ c, o ≠ .prim [0] c) (rest : Bytes) :
    (b ++ rest).take 2 ≠ [0, 0] := by
  have key : ∀ {tag tl : Bytes}, IsTag tag → (tag ++ tl).take 2 = [0, 0] → tag = [0] := by
    intro tag tl ht he
    rcases ht with ⟨x, hx, rfl⟩ | ⟨x, hs, y, hx, hh, hy, rfl⟩
    · cases tl with
      | nil => simp at he
      | cons a tl => simp at he; simp [he]
    · simp only [List.cons_append] at he
      rw [List.take_succ_cons] at he
      have : x = 0 := by injection he
      subst this
      simp at hx
  intro he
  cases h with
  | prim ht hl =>
    simp only [List.append_assoc] at he
    have := key ht.1 he
    subst this
    exact hno _ rfl
  | con ht hk hl =>
    simp only [List.append_assoc] at he
    have := key ht.1 he
    subst this
    obtain ⟨-, x, r, hxr, hx⟩ := ht
    simp only [List.cons.injEq] at hxr
    rw [← hxr.1] at hx
    simp at hx
  | indef ht hk hne hno =>
    simp only [List.append_assoc] at he
    have := key ht.1 he
    subst this
    obtain ⟨-, x, r, hxr, hx⟩ := ht
    simp only [List.cons.injEq] at hxr
    rw [← hxr.1] at hx
    simp at hx

mutual
theorem readObject_ber {o : Asn1} {b : Bytes} (h : BerEnc o b) (fuel : Nat) (rest : Bytes) (hf : b.length < fuel) :
    readObject fuel (b ++ rest) = .ok (.ok (o, rest)) := by
  cases fuel with
  | zero => omega
  | succ fuel =>
  cases h with
  | @prim tag len content ht hl =>
    simp only [readObject, List.append_assoc]
    rw [readTag_spec ht.1]
    simp only
    rw [readLength_ber hl]
    simp only
    rw [if_neg (by simp), constructed_prim ht, if_neg (by simp)]
    simp
  | @con tag len kids body ht hk hl =>
    have h1 := ht.1.pos
    have h2 := hl.pos
    simp only [List.length_append] at hf
    simp only [readObject, List.append_assoc]
    rw [readTag_spec ht.1]
    simp only
    rw [readLength_ber hl]
    simp only
    rw [if_neg (by simp), constructed_con ht, if_pos rfl]
    have := readKids_ber hk fuel rest (by omega)
    have e : (body ++ rest).length - body.length = rest.length := by simp
    rw [e, this]
    simp
  | @indef tag kids body ht hk hne hno =>
    have h1 := ht.1.pos
    simp only [List.length_append, List.length_cons, List.length_nil] at hf
    simp only [readObject, List.append_assoc]
    rw [readTag_spec ht.1]
    simp only
    have : readLength ([128] ++ (body ++ ([0, 0] ++ rest))) = .ok (.ok (none, body ++ ([0, 0] ++ rest))) := by
      simp [readLength]
    rw [this]
    simp only
    rw [constructed_con ht, if_pos rfl]
    have := readKids_indef hk fuel rest (by omega) hne hno
    rw [this]
    simp
theorem readKids_ber {os : List Asn1} {b : Bytes} (h : BerEncs os b) (fuel : Nat) (rest : Bytes)
    (hf : b.length + 1 < fuel) : readKids fuel (b ++ rest) (some rest.length) = .ok (.ok (os, rest)) := by
  cases fuel with
  | zero => omega
  | succ fuel =>
  cases h with
  | nil =>
    simp only [readKids, List.nil_append]
    rw [if_neg (by omega)]
  | @cons o os b bs ho hs =>
    have h1 := ho.pos
    simp only [List.length_append] at hf
    simp only [readKids, List.append_assoc]
    rw [if_pos (by simp only [List.length_append]; omega), readObject_ber ho fuel _ (by omega)]
    simp only
    rw [readKids_ber hs fuel _ (by omega)]
theorem readKids_indef {os : List Asn1} {b : Bytes} (h : BerEncs os b) (fuel : Nat) (rest : Bytes)
    (hf : b.length + 1 < fuel) (hne : os ≠ []) (hno : ∀ c, .prim [0] c ∉ os) :
    readKids fuel (b ++ ([0, 0] ++ rest)) none = .ok (.ok (os, [0, 0] ++ rest)) := by
  cases fuel with
  | zero => omega
  | succ fuel =>
  cases h with
  | nil => exact absurd rfl hne
  | @cons o os b bs ho hs =>
    have h1 := ho.pos
    simp only [List.length_append] at hf
    simp only [readKids, List.append_assoc]
    rw [readObject_ber ho fuel _ (by omega)]
    simp only
    rw [if_neg (by simp only [List.length_append, List.length_cons]; omega)]
    by_cases hos : os = []
    · subst hos
      cases hs
      rw [if_pos (by simp)]
      simp
    · rw [readKids_indef hs fuel _ (by omega) hos (fun c hc => hno c (by simp [hc]))]
      rw [if_neg]
      cases hs with
      | nil => exact absurd rfl hos
      | @cons o' os' b' bs' ho' hs' =>
        rw [List.append_assoc]
        exact ho'.not_eoc (fun c e => hno c (by simp [e])) _
end

/-! ## Soundness: the output is DER -/

theorem readObject_der (fuel : Nat) :
    (∀ b o rest, readObject fuel b = .ok (.ok (o, rest)) → o.encode.length < 2 ^ 63 → DerEnc o o.encode) ∧
    (∀ b k os rest, readKids fuel b k = .ok (.ok (os, rest)) → (Asn1.encodeAll os).length < 2 ^ 63 →
      DerEncs os (Asn1.encodeAll os)) := by
  induction fuel with
  | zero => exact ⟨fun b o rest h => by simp [readObject] at h, fun b k os rest h => by simp [readKids] at h⟩
  | succ fuel ih =>
    constructor
    · intro b o rest h
      simp only [readObject] at h
      split at h
      · simp at h
      rename_i tag b1 ht
      obtain ⟨htag, rfl⟩ := readTag_sound ht
      have con : ∀ kids, constructed tag = true → DerEncs kids (Asn1.encodeAll kids) ∨ 2 ^ 63 ≤ (Asn1.encodeAll kids).length →
          (Asn1.con tag kids).encode.length < 2 ^ 63 → DerEnc (.con tag kids) (Asn1.con tag kids).encode := by
        intro kids hc hk hl
        rw [Asn1.encode] at hl ⊢
        simp only [List.length_append] at hl
        exact .con (conTag_of htag hc) (hk.resolve_right (by omega)) (encodeLength_der (by omega))
      split at h
      · simp at h
      · simp at h
      · rename_i b2 hl
        split at h
        · rename_i hcon
          split at h
          · simp at h
          · simp at h
          · rename_i kids rest' hk
            simp only [Except.ok.injEq, Prod.mk.injEq] at h
            obtain ⟨rfl, -⟩ := h
            refine con kids hcon ?_
            by_cases hlt : (Asn1.encodeAll kids).length < 2 ^ 63
            · exact .inl (ih.2 _ _ _ _ hk hlt)
            · exact .inr (by omega)
        · simp at h
      · rename_i n b2 hl
        split at h
        · simp at h
        split at h
        · rename_i hcon
          split at h
          · simp at h
          · simp at h
          · rename_i kids rest' hk
            simp only [Except.ok.injEq, Prod.mk.injEq] at h
            obtain ⟨rfl, -⟩ := h
            refine con kids hcon ?_
            by_cases hlt : (Asn1.encodeAll kids).length < 2 ^ 63
            · exact .inl (ih.2 _ _ _ _ hk hlt)
            · exact .inr (by omega)
        · rename_i hcon
          simp only [Except.ok.injEq, Prod.mk.injEq] at h
          obtain ⟨rfl, -⟩ := h
          intro hlt
          rw [Asn1.encode] at hlt ⊢
          simp only [List.length_append] at hlt
          exact .prim (primTag_of htag (by simpa using hcon)) (encodeLength_der (by omega))
    · intro b k os rest h
      have cons : ∀ o os', (o.encode.length < 2 ^ 63 → DerEnc o o.encode) →
          ((Asn1.encodeAll os').length < 2 ^ 63 → DerEncs os' (Asn1.encodeAll os')) →
          (Asn1.encodeAll (o :: os')).length < 2 ^ 63 → DerEncs (o :: os') (Asn1.encodeAll (o :: os')) := by
        intro o os' h1 h2 h3
        rw [Asn1.encodeAll] at h3 ⊢
        simp only [List.length_append] at h3
        exact .cons (h1 (by omega)) (h2 (by omega))
      have hnil : DerEncs [] (Asn1.encodeAll []) := by rw [Asn1.encodeAll]; exact .nil
      cases k with
      | some k =>
        simp only [readKids] at h
        split at h
        · split at h
          · simp at h
          · simp at h
          · rename_i o r ho
            split at h
            · simp at h
            · simp at h
            · rename_i os' r' hk
              simp only [Except.ok.injEq, Prod.mk.injEq] at h
              obtain ⟨rfl, -⟩ := h
              exact cons _ _ (ih.1 _ _ _ ho) (ih.2 _ _ _ _ hk)
        · simp only [Except.ok.injEq, Prod.mk.injEq] at h
          obtain ⟨rfl, -⟩ := h
          exact fun _ => hnil
      | none =>
        simp only [readKids] at h
        split at h
        · simp at h
        · simp at h
        · rename_i o r ho
          split at h
          · simp at h
          split at h
          · simp only [Except.ok.injEq, Prod.mk.injEq] at h
            obtain ⟨rfl, -⟩ := h
            exact cons _ _ (ih.1 _ _ _ ho) (fun _ => hnil)
          · split at h
            · simp at h
            · simp at h
            · rename_i os' r' hk
              simp only [Except.ok.injEq, Prod.mk.injEq] at h
              obtain ⟨rfl, -⟩ := h
              exact cons _ _ (ih.1 _ _ _ ho) (ih.2 _ _ _ _ hk)

/-! ## DER encodings are BER encodings, and unique -/

mutual
theorem DerEnc.ber {o : Asn1} {b : Bytes} (h : DerEnc o b) (hl : b.length < 2 ^ 31) : BerEnc o b := by
  cases h with
  | prim ht hn => simp only [List.length_append] at hl; exact .prim ht (hn.ber (by omega))
  | con ht hk hn => simp only [List.length_append] at hl; exact .con ht (hk.ber (by omega)) (hn.ber (by omega))
theorem DerEncs.ber {os : List Asn1} {b : Bytes} (h : DerEncs os b) (hl : b.length < 2 ^ 31) : BerEncs os b := by
  cases h with
  | nil => exact .nil
  | cons ho hs => simp only [List.length_append] at hl; exact .cons (ho.ber (by omega)) (hs.ber (by omega))
end

mutual
theorem DerEnc.encode {o : Asn1} {b : Bytes} (h : DerEnc o b) (hl : b.length < 2 ^ 63) : o.encode = b := by
  cases h with
  | prim ht hn =>
    simp only [List.length_append] at hl
    rw [Asn1.encode, (encodeLength_der (by omega)).unique hn]
  | con ht hk hn =>
    simp only [List.length_append] at hl
    rw [Asn1.encode, hk.encodeAll (by omega), (encodeLength_der (by omega)).unique hn]
theorem DerEncs.encodeAll {os : List Asn1} {b : Bytes} (h : DerEncs os b) (hl : b.length < 2 ^ 63) :
    Asn1.encodeAll os = b := by
  cases h with
  | nil => rw [Asn1.encodeAll]
  | cons ho hs =>
    simp only [List.length_append] at hl
    rw [Asn1.encodeAll, ho.encode (by omega), hs.encodeAll (by omega)]
end

theorem ber2der_ber {o : Asn1} {b : Bytes} (h : BerEnc o b) (rest : Bytes) :
    ber2der (b ++ rest) = .ok (.ok o.encode) := by
  have hp := h.pos
  unfold ber2der
  rw [if_neg (by cases b <;> simp_all), readObject_ber h _ _ (by simp only [List.length_append]; omega)]

theorem ber2der_ok {b out : Bytes} (h : ber2der b = .ok (.ok out)) :
    ∃ o rest, readObject (b.length + 1) b = .ok (.ok (o, rest)) ∧ out = o.encode := by
  unfold ber2der at h
  split at h
  · simp at h
  · split at h
    · simp at h
    · simp at h
    · rename_i o r hr
      simp only [Except.ok.injEq] at h
      exact ⟨o, r, hr, h.symm⟩

end Apk
