import Verif.Spec.Marshal
import Verif.Proofs.DerEnc
import Verif.Proofs.Keys
/-! # What is written is in the grammar that is read -/
namespace Apk
namespace Mar

theorem eqv_iff {α : Type} {inst : DecidableEq α} {a b : α} : @eqv α inst a b = true ↔ a = b := by simp [eqv]

mutual
theorem isZero_eq : (t : Ty) → (v : t.interp) → t.isZero v = true → v = t.zero
  | .rawValue, v, h => by rw [Ty.isZero] at h; exact eqv_iff.1 h
  | .oid, v, h => by rw [Ty.isZero] at h; exact eqv_iff.1 h
  | .bits, v, h => by rw [Ty.isZero] at h; exact eqv_iff.1 h
  | .time, v, h => by rw [Ty.isZero] at h; exact eqv_iff.1 h
  | .enumerated, v, h => by rw [Ty.isZero] at h; exact eqv_iff.1 h
  | .flag, v, h => by rw [Ty.isZero] at h; exact eqv_iff.1 h
  | .bigInt, v, h => by rw [Ty.isZero] at h; exact eqv_iff.1 h
  | .bool, v, h => by rw [Ty.isZero] at h; exact eqv_iff.1 h
  | .int, v, h => by rw [Ty.isZero] at h; exact eqv_iff.1 h
  | .int32, v, h => by rw [Ty.isZero] at h; exact eqv_iff.1 h
  | .octets, v, h => by rw [Ty.isZero] at h; exact eqv_iff.1 h
  | .str, v, h => by rw [Ty.isZero] at h; exact eqv_iff.1 h
  | .any, v, h => by rw [Ty.isZero] at h; exact eqv_iff.1 h
  | .struct raw fs, v, h => by
    rw [Ty.isZero, Bool.and_eq_true] at h
    rw [Ty.zero]
    exact Prod.ext (of_decide_eq_true h.1) (fieldsZero_eq fs v.2 h.2)
  | .slice s e, v, h => by
    rw [Ty.isZero] at h
    rw [Ty.zero]
    exact List.isEmpty_iff.1 h
theorem fieldsZero_eq : (fs : Fields) → (v : fs.interp) → fs.isZero v = true → v = fs.zero
  | .nil, _, _ => rfl
  | .cons tag t fs, v, h => by
    rw [Fields.isZero, Bool.and_eq_true] at h
    rw [Fields.zero]
    exact Prod.ext (isZero_eq t v.1 h.1) (fieldsZero_eq fs v.2 h.2)
end

theorem absentValue_zero {fp : FP} (hd : fp.dflt = none) (t : Ty) : AbsentValue fp t t.zero := by
  cases t <;> simp only [AbsentValue, hd] <;> rfl

theorem emptySlice_eq {t : Ty} {v : t.interp} (h : t.isEmptySlice v = true) : ∀ fp, AbsentValue fp t v := by
  intro fp
  cases t <;> simp only [Ty.isEmptySlice, Bool.false_eq_true] at h
  · exact eqv_iff.1 h
  · exact eqv_iff.1 h
  · exact List.isEmpty_iff.1 h

theorem isDefault_eq {t : Ty} {v : t.interp} {d : Int} {fp : FP} (hd : fp.dflt = some d) (h : t.isDefault d v = true) : AbsentValue fp t v := by
  cases t <;> simp only [Ty.isDefault, Bool.false_eq_true] at h
  · have := eqv_iff.1 h; simp only [AbsentValue, hd]; exact this
  · have := eqv_iff.1 h; simp only [AbsentValue, hd]; exact this
  · have := eqv_iff.1 h; simp only [AbsentValue, hd]; exact this

theorem omits_absent {mp : MP} {t : Ty} {v : t.interp} (h : Ty.omits mp t v = true) : AbsentValue mp.toFP t v := by
  rw [Ty.omits, Bool.or_eq_true, Bool.and_eq_true, Bool.and_eq_true] at h
  rcases h with ⟨_, h⟩ | ⟨_, h⟩
  · exact emptySlice_eq h _
  · cases hd : mp.dflt with
    | some d => rw [hd] at h; exact isDefault_eq hd h
    | none =>
      rw [hd] at h
      rw [isZero_eq t v h]
      exact absentValue_zero hd t

/-- The headers that are written. -/
theorem header_der {cls : Nat} {tag : Int} {n : Nat} {con : Bool} (hc : cls < 4) (h0 : 0 ≤ tag) (ht : tag < 2 ^ 31) (hn : n < 2 ^ 31) :
    DerHeader ⟨cls, tag.toNat, n, con⟩ (encodeHeader cls tag n con) := by
  have h := parseTagAndLength_enc (t := ⟨cls, tag.toNat, n, con⟩) hc (by show tag.toNat < 2 ^ 31; omega) hn []
  obtain ⟨hdr, h1, h2⟩ := (header_iff _ _ _).1 h
  rw [List.append_nil, List.append_nil] at h2
  rw [encodeHeader, if_neg (by omega), h2]
  exact h1

theorem located_tagged {mp : MP} (hs : mp.Symmetric) (hok : mp.toFP.Ok) {t : Ty} (hr : t ≠ .rawValue) {tag : Nat} (ht : tag < 2 ^ 31)
    (htag : if mp.set then tag = 17 else t.HasTag tag) {body : Bytes} (hl : (tagged mp tag t.constructed body).length < 2 ^ 31) (rest : Bytes) :
    ∃ tl, Located t mp.toFP (tagged mp tag t.constructed body ++ rest) tl body rest ∧ tl.length = body.length ∧
      (¬ mp.hidesKind → tl.cls = 0 ∧ tl.tag = tag) ∧ (mp.hidesKind → tl.cls ≠ 0) := by
  have cn := FP.cls_ne mp.toFP
  have hcls : (if mp.application = true then 1 else if mp.priv = true then 3 else 2) = mp.toFP.cls := by
    rw [FP.cls]
    by_cases hp : mp.priv = true
    · rw [(hs.2 hp).2]; simp
    · simp [hp]
  have hcls4 : mp.toFP.cls < 4 := by rw [FP.cls]; split; omega; split <;> omega
  have hb0 : ∀ (a b : Bytes), b.length ≤ (a ++ b).length := by intro a b; simp
  cases hm : mp.tag with
  | none =>
    have he : mp.explicit = false := by
      cases hx : mp.explicit with
      | false => rfl
      | true => exact absurd hm (hok hx)
    have hd : DerHeader ⟨0, (tag : Int).toNat, body.length, t.constructed⟩ (encodeHeader 0 tag body.length t.constructed) := by
      refine header_der (by decide) (by omega) (by omega) ?_
      rw [tagged, hm] at hl
      have := hb0 (encodeHeader 0 tag body.length t.constructed) body
      dsimp only at hl
      omega
    refine ⟨⟨0, tag, body.length, t.constructed⟩, ?_, rfl, fun _ => ⟨rfl, rfl⟩, fun h => absurd hm h.2⟩
    rw [tagged, hm]
    exact Located.plain he hd ⟨.inr rfl, by rw [he, hm]; exact .inr ⟨rfl, htag⟩⟩ rfl
  | some n =>
    obtain ⟨hn0, hn1⟩ := hs.1 n hm
    cases he : mp.explicit with
    | false =>
      have hd : DerHeader ⟨mp.toFP.cls, n.toNat, body.length, t.constructed⟩ (encodeHeader mp.toFP.cls n body.length t.constructed) := by
        refine header_der hcls4 hn0 hn1 ?_
        rw [tagged, hm] at hl
        dsimp only at hl
        rw [he, hcls, if_neg (by simp)] at hl
        have := hb0 (encodeHeader mp.toFP.cls n body.length t.constructed) body
        omega
      refine ⟨⟨mp.toFP.cls, n.toNat, body.length, t.constructed⟩, ?_, rfl, fun h => absurd ⟨he, by rw [hm]; simp⟩ h, fun _ => cn⟩
      rw [tagged, hm]
      dsimp only
      rw [he, hcls, if_neg (by simp)]
      refine Located.plain he hd ⟨.inr rfl, ?_⟩ rfl
      rw [he, hm]
      exact ⟨rfl, by show ((n.toNat : Nat) : Int) = n; omega⟩
    | true =>
      have hpriv : mp.priv = false := by
        cases hp : mp.priv with
        | false => rfl
        | true => rw [(hs.2 hp).1] at he; cases he
      have hcw : mp.toFP.cls = if mp.application = true then 1 else 2 := by rw [FP.cls, hpriv]; simp
      rw [tagged, hm] at hl
      dsimp only at hl
      rw [he, hcls, if_pos rfl] at hl
      have l1 := hb0 (encodeHeader mp.toFP.cls n (encodeHeader 0 tag body.length t.constructed ++ body).length true) (encodeHeader 0 tag body.length t.constructed ++ body)
      have l2 := hb0 (encodeHeader 0 tag body.length t.constructed) body
      have hd : DerHeader ⟨0, (tag : Int).toNat, body.length, t.constructed⟩ (encodeHeader 0 tag body.length t.constructed) :=
        header_der (by decide) (by omega) (by omega) (by omega)
      have hd0 : DerHeader ⟨mp.toFP.cls, n.toNat, (encodeHeader 0 tag body.length t.constructed ++ body).length, true⟩
          (encodeHeader mp.toFP.cls n (encodeHeader 0 tag body.length t.constructed ++ body).length true) := header_der hcls4 hn0 hn1 (by omega)
      refine ⟨⟨0, tag, body.length, t.constructed⟩, ?_, rfl, fun _ => ⟨rfl, rfl⟩, fun h => absurd h.1 (by rw [he]; simp)⟩
      rw [tagged, hm]
      dsimp only
      rw [he, hcls, if_pos rfl, List.append_assoc]
      refine Located.explicit he hr hd0 ⟨hcw, ?_, .inr rfl⟩ ?_ hd ⟨.inr rfl, ?_⟩ rfl
      · rw [hm]; show some ((n.toNat : Nat) : Int) = some n; congr 1; omega
      · have := header_ne hd
        have : 0 < (encodeHeader 0 tag body.length t.constructed).length := List.length_pos_iff.2 this
        show 0 < (encodeHeader 0 (↑tag) body.length t.constructed ++ body).length
        rw [List.length_append]; omega
      · rw [he]; exact .inr ⟨rfl, htag⟩

theorem bind_ok {α β : Type} {x : Except MErr α} {f : α → Except MErr β} {b : β} (h : (x >>= f) = .ok b) : ∃ a, x = .ok a ∧ f a = .ok b := by
  cases x with
  | error e => cases h
  | ok a => exact ⟨a, rfl, h⟩

theorem fieldTagged_ok {mp : MP} {om : Bool} {tag0 : Int} {con : Bool} {tag : Except MErr Int} {body : Int → Except MErr Bytes} {b : Bytes}
    (h : fieldTagged mp om tag0 con tag body = .ok b) :
    (om = true ∧ b = []) ∨ (om = false ∧ ∃ t t' c, (mp.timeType = 0 ∨ tag0 = 23) ∧ (mp.stringType = 0 ∨ tag0 = 19) ∧ tag = .ok t ∧
      (mp.set = true ∧ t = 16 ∧ t' = 17 ∨ mp.set = false ∧ t' = t) ∧ body t' = .ok c ∧ b = tagged mp t' con c) := by
  rw [fieldTagged] at h
  cases om with
  | true => left; rw [if_pos rfl] at h; cases h; exact ⟨rfl, rfl⟩
  | false =>
    right
    rw [if_neg (by simp)] at h
    obtain ⟨_, hc, h⟩ := bind_ok h
    obtain ⟨t, ht, h⟩ := bind_ok h
    obtain ⟨t', ht', h⟩ := bind_ok h
    obtain ⟨c, hb, h⟩ := bind_ok h
    cases h
    have h1 : mp.timeType = 0 ∨ tag0 = 23 := by
      refine Classical.byContradiction (fun hn => ?_)
      rw [checkParams, if_pos (by omega)] at hc
      cases hc
    have h2 : mp.stringType = 0 ∨ tag0 = 19 := by
      refine Classical.byContradiction (fun hn => ?_)
      rw [checkParams, if_neg (by omega), if_pos (by omega)] at hc
      cases hc
    refine ⟨rfl, t, t', c, h1, h2, ht, ?_, hb, rfl⟩
    cases hs : mp.set with
    | false => rw [setTag, hs, if_neg (by simp)] at ht'; cases ht'; exact .inr ⟨rfl, rfl⟩
    | true =>
      rw [setTag, hs, if_pos rfl] at ht'
      by_cases h16 : t = 16
      · rw [if_neg (by simp [h16])] at ht'; cases ht'; exact .inl ⟨rfl, h16, rfl⟩
      · rw [if_pos h16] at ht'; cases ht'


/-- A primitive field that is there. -/
theorem prim_there {env : AsnEnv} {mp : MP} (hs : mp.Symmetric) (hok : mp.toFP.Ok) {t : Ty} (hr : t ≠ .rawValue) {tag : Nat} (ht : tag < 2 ^ 31)
    (htag : if mp.set then tag = 17 else t.HasTag tag) {body : Bytes} (hl : (tagged mp tag t.constructed body).length < 2 ^ 31) (rest : Bytes)
    {v : t.interp} (hc : ∀ tl full, (¬ mp.hidesKind → tl.cls = 0 ∧ tl.tag = tag) → (mp.hidesKind → tl.cls ≠ 0) → PrimContents env mp.toFP tl body full t v) :
    PrimReads env t mp.toFP v (tagged mp tag t.constructed body ++ rest) rest := by
  obtain ⟨tl, h1, h2, h3, h4⟩ := located_tagged hs hok hr ht htag hl rest
  exact .inl ⟨tl, body, h1, hc _ _ h3 h4⟩

theorem int32_64 {i : Int} (h : IsInt32 i) : IsInt64 i := by
  unfold IsInt32 at h
  unfold IsInt64
  omega

theorem bits_contents {v : BitStr} (h : BitContents v (UInt8.ofNat (8 * v.bytes.length - v.bitLength) :: v.bytes)) :
    BitContents v (encodeBitString v) := by
  have e : (8 - v.bitLength % 8) % 8 = (8 * v.bytes.length - v.bitLength) % 256 := by
    obtain ⟨p, h1, h2, h3, h4⟩ := h
    simp only [List.cons.injEq, and_true] at h1
    subst h1
    rw [u8_toNat_ofNat] at h2 h3
    have : 8 * v.bytes.length - v.bitLength = (8 * v.bytes.length - v.bitLength) % 256 + 256 * ((8 * v.bytes.length - v.bitLength) / 256) := by omega
    omega
  have : encodeBitString v = UInt8.ofNat (8 * v.bytes.length - v.bitLength) :: v.bytes := by
    rw [encodeBitString]
    congr 1
    apply UInt8.toNat_inj.1
    rw [u8_toNat_ofNat, u8_toNat_ofNat, e]
    omega
  rw [this]
  exact h

theorem oid_contents {oid : List Nat} (h : ValidOid oid) : ∃ b, encodeOid oid = .ok b ∧ OidContents oid b := by
  obtain ⟨b, h1, h2⟩ := encodeOid_valid h
  exact ⟨b, h1, (oid_iff _ _).1 h2⟩

theorem string_contents {env : AsnEnv} {menv : MarEnv} {mp : MP} {s : Bytes} (hf : LeafFits env menv mp .str s) {tag : Int} {c : Bytes}
    (ht : stringTag menv mp s = .ok tag) (hb : stringBody mp s = .ok c) :
    c = s ∧ ∃ k : Nat, tag = k ∧ Ty.HasTag .str k ∧ StringContents env k s s ∧ (mp.stringType = 0 ∨ mp.stringType = k) := by
  obtain ⟨f1, f2, f3⟩ := hf
  rw [stringTag] at ht
  rw [stringBody] at hb
  by_cases h0 : mp.stringType = 0
  · rw [if_pos h0] at ht
    rw [h0, if_neg (by decide), if_neg (by decide), if_neg (by decide)] at hb
    cases hb
    refine ⟨rfl, ?_⟩
    by_cases hp : s.all (isPrintableByte false) = true
    · rw [if_pos hp] at ht; cases ht
      exact ⟨19, rfl, by simp [Ty.HasTag], .inl ⟨.inl rfl, rfl⟩, .inl h0⟩
    · rw [if_neg hp] at ht
      by_cases hu : menv.utf8Valid s = true
      · rw [if_pos hu] at ht; cases ht
        exact ⟨12, rfl, by simp [Ty.HasTag], .inr (.inr (.inr (.inl ⟨rfl, rfl, f2 ▸ hu⟩))), .inl h0⟩
      · rw [if_neg hu] at ht; cases ht
  · rw [if_neg h0] at ht
    cases ht
    by_cases h22 : mp.stringType = 22
    · rw [if_pos h22] at hb
      by_cases ha : s.all (fun c => decide (c.toNat < 128)) = true
      · rw [if_pos ha] at hb; cases hb
        rw [h22]
        exact ⟨rfl, 22, rfl, by simp [Ty.HasTag], .inr (.inr (.inl ⟨rfl, rfl, fun c hc => of_decide_eq_true (List.all_eq_true.1 ha c hc)⟩)), .inr rfl⟩
      · rw [if_neg ha] at hb; cases hb
    · rw [if_neg h22] at hb
      by_cases h19 : mp.stringType = 19
      · rw [if_pos h19] at hb
        by_cases ha : s.all (isPrintableByte true) = true
        · rw [if_pos ha] at hb; cases hb
          rw [h19]
          exact ⟨rfl, 19, rfl, by simp [Ty.HasTag], .inl ⟨.inl rfl, rfl⟩, .inr rfl⟩
        · rw [if_neg ha] at hb; cases hb
      · rw [if_neg h19] at hb
        by_cases h18 : mp.stringType = 18
        · rw [if_pos h18] at hb
          by_cases ha : s.all isNumericByte = true
          · rw [if_pos ha] at hb; cases hb
            rw [h18]
            refine ⟨rfl, 18, rfl, by simp [Ty.HasTag], .inr (.inl ⟨rfl, rfl, fun c hc => ?_⟩), .inr rfl⟩
            have := List.all_eq_true.1 ha c hc
            rw [isNumericByte, Bool.or_eq_true] at this
            rcases this with h | h
            · exact .inl (of_decide_eq_true h)
            · exact .inr (of_decide_eq_true h)
          · rw [if_neg ha] at hb; cases hb
        · rw [if_neg h18] at hb; cases hb
          have h12 : mp.stringType = 12 := by simp at f3; omega
          rw [h12]
          exact ⟨rfl, 12, rfl, by simp [Ty.HasTag], .inr (.inr (.inr (.inl ⟨rfl, rfl, f1 h12⟩))), .inr rfl⟩

theorem raw_elem {v : RawVal} (h : (v.full = [] ∧ v.cls < 4 ∧ v.tag < 2 ^ 31) ∨ Elem v.cls v.tag v.isCompound v.bytes v.full)
    (hl : (rawBytes v).length < 2 ^ 31) : Elem v.cls v.tag v.isCompound v.bytes (rawBytes v) := by
  rw [rawBytes] at hl ⊢
  rcases h with ⟨h1, h2, h3⟩ | h
  · rw [if_neg (by simp [h1])] at hl ⊢
    exact tlv_elem h2 h3 (by rw [List.length_append] at hl; omega)
  · rw [if_pos h.ne]; exact h

theorem symmetric_ok {fp : FP} : fp.Ok ↔ (fp.explicit = true → fp.tag ≠ none) := Iff.rfl

theorem raw_reads {env : AsnEnv} {fp : FP} {v : RawVal} {rest : Bytes} (h : RawFits fp v rest) (hl : (rawBytes v).length < 2 ^ 31) :
    ∃ w : RawVal, PrimReads env .rawValue fp w (rawBytes v ++ rest) rest ∧ SameRaw v w := by
  obtain ⟨h1, h2, h3⟩ := h
  have e := raw_elem h1 hl
  have fin : (∃ tl, Located .rawValue fp (rawBytes v ++ rest) tl v.bytes rest ∧ tl.cls = v.cls ∧ tl.tag = v.tag ∧ tl.isCompound = v.isCompound) →
      ∃ w : RawVal, PrimReads env .rawValue fp w (rawBytes v ++ rest) rest ∧ SameRaw v w := by
    rintro ⟨tl, hloc, a1, a2, a3⟩
    exact ⟨⟨tl.cls, tl.tag, tl.isCompound, v.bytes, _⟩, .inl ⟨tl, v.bytes, hloc, rfl⟩, a1, a2, a3, rfl⟩
  apply fin
  cases he : fp.explicit with
  | false =>
    refine ⟨_, e.located he ⟨.inl rfl, ?_⟩ rest, rfl, rfl, rfl⟩
    rw [he]
    cases ht : fp.tag with
    | none => exact .inl rfl
    | some n => exact h2 he n ht
  | true =>
    obtain ⟨w1, w2, w3, w4⟩ := h3 he
    obtain ⟨hdr, hh, hb⟩ := e
    refine ⟨⟨v.cls, v.tag, v.bytes.length, v.isCompound⟩, ?_, rfl, rfl, rfl⟩
    rw [hb]
    refine Located.explicitRaw he rfl hh ⟨w1, w2, ?_⟩ rfl ?_
    · rcases w3 with w | w
      · left; show v.bytes.length = 0; rw [w]; rfl
      · exact .inr w
    · simp only [ne_eq, List.append_eq_nil_iff]
      rintro ⟨x, y⟩
      rcases w4 with w | w
      · exact w x
      · exact w y

/-- The tag of a leaf type. -/
theorem leaf_there {env : AsnEnv} {mp : MP} (hok : mp.toFP.Ok) {t : Ty} (hr : t ≠ .rawValue) {om : Bool} {tag0 : Nat} (h16 : tag0 ≠ 16) (h31 : tag0 < 31)
    (hcon : t.constructed = false) (htag : t.HasTag tag0) {body : Except MErr Bytes} {b rest : Bytes} {v : t.interp} (hs : om = false → mp.Symmetric)
    (h : fieldTagged mp om tag0 false (.ok tag0) (fun _ => body) = .ok b) (hl : b.length < 2 ^ 31)
    (hc : om = false → ∀ c, body = .ok c → ∀ tl full, PrimContents env mp.toFP tl c full t v)
    (ha : om = true → Absent t mp.toFP rest ∧ AbsentValue mp.toFP t v) : PrimReads env t mp.toFP v (b ++ rest) rest := by
  rcases fieldTagged_ok h with ⟨ho, rfl⟩ | ⟨ho, t1, t2, c, _, _, e1, hset, hb, rfl⟩
  · exact .inr (.inl ⟨(ha ho).1, (ha ho).2, rfl⟩)
  · cases e1
    rcases hset with ⟨_, e, _⟩ | ⟨hset, rfl⟩
    · exact absurd (Int.ofNat_inj.1 e) h16
    · rw [← hcon] at hl ⊢
      refine prim_there (hs ho) hok hr (by omega) (by rw [hset]; exact htag) hl rest (fun tl full _ _ => hc ho c hb tl full)


theorem elems_rel {α : Type} {f : α → Except MErr Bytes} : {vs : List α} → {bs : List Bytes} → makeElems f vs = .ok bs → ListRel (fun v b => f v = .ok b) vs bs
  | [], bs, h => by cases h; exact .nil
  | v :: vs, bs, h => by
    obtain ⟨b, h1, h⟩ := bind_ok h
    obtain ⟨bs', h2, h⟩ := bind_ok h
    cases h
    exact .cons h1 (elems_rel h2)

theorem listRel_perm {α β : Type} {R : α → β → Prop} {bs bs' : List β} (hp : List.Perm bs bs') : ∀ {vs : List α}, ListRel R vs bs → ∃ us : List α, List.Perm us vs ∧ ListRel R us bs' := by
  induction hp with
  | nil => intro vs h; exact ⟨vs, .refl _, h⟩
  | cons x _ ih =>
    intro vs h
    cases h with
    | cons h1 h2 =>
      obtain ⟨us, p, r⟩ := ih h2
      exact ⟨_, .cons _ p, .cons h1 r⟩
  | swap x y l =>
    intro vs h
    cases h with
    | cons h1 h2 => cases h2 with
      | cons h3 h4 => exact ⟨_, .swap _ _ _, .cons h3 (.cons h1 h4)⟩
  | trans _ _ ih1 ih2 =>
    intro vs h
    obtain ⟨us, p, r⟩ := ih1 h
    obtain ⟨ws, q, r'⟩ := ih2 r
    exact ⟨ws, q.trans p, r'⟩

theorem setInsert_mem_perm (x : Bytes) (l : List Bytes) : List.Perm (setInsert x l) (x :: l) := by
  induction l with
  | nil => exact .refl _
  | cons y ys ih =>
    rw [setInsert]
    split
    · exact (List.Perm.cons y ih).trans (.swap _ _ _)
    · exact .refl _

theorem setSort_self_perm (l : List Bytes) : List.Perm (setSort l) l := by
  induction l with
  | nil => exact .refl _
  | cons x xs ih => exact (setInsert_mem_perm x _).trans (.cons x ih)

theorem allOf_mem {α : Type} {P : α → Prop} {l : List α} : AllOf P l ↔ ∀ x ∈ l, P x := by
  induction l with
  | nil => simp [AllOf]
  | cons y ys ih => simp [AllOf, ih]

theorem seq_reads {α : Type} {R : α → Bytes → Prop} {Q : α → Prop} {S : α → α → Prop} {P : α → Bytes → Bytes → Prop}
    (hP : ∀ v b rest, R v b → Q v → b.length < 2 ^ 31 → ∃ w, P w (b ++ rest) rest ∧ S v w ∧ b ++ rest ≠ []) :
    ∀ {us : List α} {bs : List Bytes}, ListRel R us bs → (∀ u ∈ us, Q u) → bs.flatten.length < 2 ^ 31 → ∃ ws, ListRel S us ws ∧ SeqOf P ws bs.flatten := by
  intro us bs h
  induction h with
  | nil => intro _ _; exact ⟨[], .nil, .nil⟩
  | @cons u b us bs h1 h2 ih =>
    intro hq hl
    rw [List.flatten_cons, List.length_append] at hl
    obtain ⟨ws, r, s⟩ := ih (fun u hu => hq u (List.mem_cons_of_mem _ hu)) (by omega)
    obtain ⟨w, p1, p2, p3⟩ := hP u b bs.flatten h1 (hq u (List.mem_cons_self ..)) (by omega)
    exact ⟨w :: ws, .cons p2 r, by rw [List.flatten_cons]; exact .cons p3 p1 s⟩

theorem tagged_body_le {mp : MP} {tag : Int} {con : Bool} {body : Bytes} : body.length ≤ (tagged mp tag con body).length := by
  rw [tagged]
  cases mp.tag with
  | none => dsimp only; rw [List.length_append]; omega
  | some n =>
    dsimp only
    split
    · rw [List.length_append, List.length_append]; omega
    · rw [List.length_append]; omega

theorem flatten_perm_length {l l' : List Bytes} (h : List.Perm l l') : l.flatten.length = l'.flatten.length := by
  have : l.flatten.Perm l'.flatten := List.Perm.flatten h
  exact this.length_eq

theorem empty_ok : FP.Ok ({} : MP).toFP := by intro h; cases h

mutual
theorem same_refl (sorted : Bool) : (t : Ty) → (isSet : Bool) → (v : t.interp) → Same sorted t isSet v v
  | .rawValue, _, v => by rw [Same]; exact ⟨rfl, rfl, rfl, rfl⟩
  | .struct _ fs, _, v => by rw [Same]; exact sameAll_refl sorted fs v.2
  | .slice isSET elem, isSet, v => by
    rw [Same]
    refine ⟨v, by split; exact .refl _; rfl, ?_⟩
    have h := fun x => same_refl sorted elem false x
    have : ∀ l : List elem.interp, ListRel (Same sorted elem false) l l := by
      intro l
      induction l with
      | nil => exact .nil
      | cons x xs ih => exact .cons (h x) ih
    exact this v
  | .oid, _, _ => by rw [Same] <;> simp
  | .bits, _, _ => by rw [Same] <;> simp
  | .time, _, _ => by rw [Same] <;> simp
  | .enumerated, _, _ => by rw [Same] <;> simp
  | .flag, _, _ => by rw [Same] <;> simp
  | .bigInt, _, _ => by rw [Same] <;> simp
  | .bool, _, _ => by rw [Same] <;> simp
  | .int, _, _ => by rw [Same] <;> simp
  | .int32, _, _ => by rw [Same] <;> simp
  | .octets, _, _ => by rw [Same] <;> simp
  | .str, _, _ => by rw [Same] <;> simp
  | .any, _, _ => by rw [Same] <;> simp
theorem sameAll_refl (sorted : Bool) : (fs : Fields) → (v : fs.interp) → SameAll sorted fs v v
  | .nil, _ => by rw [SameAll]; trivial
  | .cons _ t fs, v => by rw [SameAll]; exact ⟨same_refl sorted t _ v.1, sameAll_refl sorted fs v.2⟩
end

theorem reads_struct_of {env : AsnEnv} {raw : Bool} {fs : Fields} {fp : FP} (v : (Ty.struct raw fs).interp) {b rest inner : Bytes} {tl : TagLen}
    (h1 : Located (.struct raw fs) fp b tl inner rest) (h2 : ReadsAll env fs v.2 inner) (h3 : v.1 = if raw then b.take (b.length - rest.length) else []) :
    Reads env (.struct raw fs) fp v b rest := by
  rw [Reads]; exact .inl ⟨tl, inner, h1, h2, h3⟩

theorem same_struct_of {sorted raw isSet : Bool} {fs : Fields} (v w : (Ty.struct raw fs).interp) (h : SameAll sorted fs v.2 w.2) :
    Same sorted (.struct raw fs) isSet v w := by
  rw [Same]; exact h

theorem reads_slice_of {env : AsnEnv} {s : Bool} {e : Ty} {fp : FP} (v : (Ty.slice s e).interp) {b rest inner : Bytes} {tl : TagLen}
    (h1 : Located (.slice s e) fp b tl inner rest) (h2 : e ≠ .any) (h3 : SeqOf (Reads env e {}) v inner) : Reads env (.slice s e) fp v b rest := by
  rw [Reads]; exact .inl ⟨tl, inner, h1, h2, h3⟩

theorem same_slice_of {sorted s isSet : Bool} {e : Ty} (v w : (Ty.slice s e).interp) (u : List e.interp)
    (h1 : if (sorted && (isSet || s)) = true then List.Perm u v else u = v) (h2 : ListRel (Same sorted e false) u w) : Same sorted (.slice s e) isSet v w := by
  rw [Same]; exact ⟨u, h1, h2⟩

theorem readsAll_cons_of {env : AsnEnv} {tag : Bytes} {t : Ty} {fs : Fields} (v : (Fields.cons tag t fs).interp) {b rest : Bytes}
    (h1 : Reads env t (parseFP tag) v.1 b rest) (h2 : ReadsAll env fs v.2 rest) : ReadsAll env (.cons tag t fs) v b := by
  rw [ReadsAll]; exact ⟨rest, h1, h2⟩

theorem sameAll_cons_of {sorted : Bool} {tag : Bytes} {t : Ty} {fs : Fields} (v w : (Fields.cons tag t fs).interp)
    (h1 : Same sorted t (parseFP tag).set v.1 w.1) (h2 : SameAll sorted fs v.2 w.2) : SameAll sorted (.cons tag t fs) v w := by
  rw [SameAll]; exact ⟨h1, h2⟩

/-- Types that are neither structured nor of any kind. -/
def IsLeaf (t : Ty) : Prop := t ≠ .any ∧ t ≠ .rawValue ∧ (∀ r fs, t ≠ .struct r fs) ∧ (∀ s e, t ≠ .slice s e)

theorem reads_leaf {env : AsnEnv} {t : Ty} (hl : IsLeaf t) {fp : FP} {v : t.interp} {b rest : Bytes} (h : PrimReads env t fp v b rest) : Reads env t fp v b rest := by
  obtain ⟨h1, h2, h3, h4⟩ := hl
  cases t
  case any => exact absurd rfl h1
  case rawValue => exact absurd rfl h2
  case struct r fs => exact absurd rfl (h3 r fs)
  case slice s e => exact absurd rfl (h4 s e)
  all_goals (rw [Reads]; exact h; all_goals simp)

theorem fits_leaf {env : AsnEnv} {menv : MarEnv} {t : Ty} (hl : IsLeaf t) {mp : MP} {v : t.interp} {rest : Bytes} (h : Fits env menv t mp v rest) :
    if Ty.omits mp t v then Absent t mp.toFP rest else mp.Symmetric ∧ LeafFits env menv mp t v := by
  obtain ⟨h1, h2, h3, h4⟩ := hl
  cases t
  case any => exact absurd rfl h1
  case rawValue => exact absurd rfl h2
  case struct r fs => exact absurd rfl (h3 r fs)
  case slice s e => exact absurd rfl (h4 s e)
  all_goals (rw [Fits] at h; exact h; all_goals simp)

theorem prim_reads {env : AsnEnv} {menv : MarEnv} {t : Ty} (hleaf : IsLeaf t) {mp : MP} (hok : mp.toFP.Ok) {v : t.interp} {b rest : Bytes}
    (h : makePrim menv mp t v = .ok b) (hl : b.length < 2 ^ 31)
    (hf : if Ty.omits mp t v then Absent t mp.toFP rest else mp.Symmetric ∧ LeafFits env menv mp t v) : PrimReads env t mp.toFP v (b ++ rest) rest := by
  have hs : Ty.omits mp t v = false → mp.Symmetric := fun ho => by rw [if_neg (by simp [ho])] at hf; exact hf.1
  have hlf : Ty.omits mp t v = false → LeafFits env menv mp t v := fun ho => by rw [if_neg (by simp [ho])] at hf; exact hf.2
  have ha : Ty.omits mp t v = true → Absent t mp.toFP rest ∧ AbsentValue mp.toFP t v := fun ho => by
    rw [if_pos ho] at hf; exact ⟨hf, omits_absent ho⟩
  obtain ⟨h1, h2, h3, h4⟩ := hleaf
  cases t
  case any => exact absurd rfl h1
  case rawValue => exact absurd rfl h2
  case struct r fs => exact absurd rfl (h3 r fs)
  case slice s e => exact absurd rfl (h4 s e)
  case oid =>
    refine leaf_there hok h2 (tag0 := 6) (by decide) (by decide) rfl rfl hs h hl (fun ho c hc tl full => ?_) ha
    obtain ⟨o, e1, e2⟩ := oid_contents (hlf ho)
    rw [e1] at hc; cases hc
    exact e2
  case bits =>
    refine leaf_there hok h2 (tag0 := 3) (by decide) (by decide) rfl rfl hs h hl (fun ho c hc tl full => ?_) ha
    cases hc
    exact bits_contents (hlf ho)
  case enumerated =>
    refine leaf_there hok h2 (tag0 := 10) (by decide) (by decide) rfl rfl hs h hl (fun ho c hc tl full => ?_) ha
    cases hc
    have := encodeInt64_spec (int32_64 (hlf ho))
    exact ⟨this.1, this.2.2, hlf ho⟩
  case flag =>
    refine leaf_there hok h2 (tag0 := 1) (by decide) (by decide) rfl rfl hs h hl (fun ho c hc tl full => ?_) ha
    exact hlf ho
  case bigInt =>
    refine leaf_there hok h2 (tag0 := 2) (by decide) (by decide) rfl rfl hs h hl (fun ho c hc tl full => ?_) ha
    have : ∀ v : Option Int, (match v with
      | none => (.error .emptyInteger : Except MErr Bytes)
      | some i => .ok (encodeBigInt i)) = .ok c → ∃ i, v = some i ∧ MinimalInt c ∧ twos c = i := by
      intro v hv
      cases v with
      | none => cases hv
      | some i => cases hv; exact ⟨i, rfl, (encodeBigInt_spec i).1, (encodeBigInt_spec i).2⟩
    exact this v hc
  case bool =>
    refine leaf_there hok h2 (tag0 := 1) (by decide) (by decide) rfl rfl hs h hl (fun ho c hc tl full => ?_) ha
    cases hc
    have : ∀ v : Bool, (v = true ∧ encodeBool v = [255]) ∨ (v = false ∧ encodeBool v = [0]) := by decide
    exact this v
  case int =>
    refine leaf_there hok h2 (tag0 := 2) (by decide) (by decide) rfl rfl hs h hl (fun ho c hc tl full => ?_) ha
    cases hc
    have := encodeInt64_spec (hlf ho)
    exact ⟨this.1, this.2.2, hlf ho⟩
  case int32 =>
    refine leaf_there hok h2 (tag0 := 2) (by decide) (by decide) rfl rfl hs h hl (fun ho c hc tl full => ?_) ha
    cases hc
    have := encodeInt64_spec (int32_64 (hlf ho))
    exact ⟨this.1, this.2.2, hlf ho⟩
  case octets =>
    refine leaf_there hok h2 (tag0 := 4) (by decide) (by decide) rfl rfl hs h hl (fun ho c hc tl full => ?_) ha
    cases hc
    rfl
  case time =>
    rcases fieldTagged_ok h with ⟨ho, rfl⟩ | ⟨ho, t1, t2, c, _, _, e1, hset, hb, rfl⟩
    · exact .inr (.inl ⟨(ha ho).1, (ha ho).2, rfl⟩)
    · rcases hset with ⟨hset, e, _⟩ | ⟨hset, rfl⟩
      · rw [if_pos hset] at e1
        cases e1
        exact absurd e (by decide)
      · rw [if_neg (by simp [hset])] at e1
        have hlf := hlf ho
        have key : ∃ (tag : Nat), t2 = (tag : Int) ∧ menv.timeBytes (decide (mp.timeType = 24)) v = some (tag, c) := by
          cases hm : menv.timeBytes (decide (mp.timeType = 24)) v with
          | none => simp only [timeOf, hm] at e1; cases e1
          | some r =>
            simp only [timeOf, hm] at e1 hb
            cases e1; cases hb
            exact ⟨r.1, rfl, rfl⟩
        obtain ⟨tag, rfl, hm⟩ := key
        have hlf := hlf tag c hm
        have htag : tag = 23 ∨ tag = 24 := by rcases hlf with h | h <;> omega
        refine prim_there (t := .time) (hs ho) hok h2 (by omega) (by rw [hset]; exact htag) hl rest (fun tl full hv hh => ?_)
        rcases hlf with ⟨rfl, hu⟩ | ⟨rfl, hk, hg⟩
        · refine .inr ⟨?_, hu⟩
          rintro (hx | ⟨hx, hy⟩)
          · rw [hset] at hx; cases hx
          · by_cases hk : mp.hidesKind
            · exact hh hk hx
            · have := (hv hk).2; omega
        · exact .inl ⟨.inr (hv hk), hg⟩
  case str =>
    rcases fieldTagged_ok h with ⟨ho, rfl⟩ | ⟨ho, t1, t2, c, _, _, e1, hset, hb, rfl⟩
    · exact .inr (.inl ⟨(ha ho).1, (ha ho).2, rfl⟩)
    · obtain ⟨rfl, k, rfl, hk, hsc, hst⟩ := string_contents (hlf ho) e1 hb
      rcases hset with ⟨hset, e, _⟩ | ⟨hset, rfl⟩
      · have e : k = 16 := Int.ofNat_inj.1 e
        subst e
        exact absurd hk (by simp [Ty.HasTag])
      · refine prim_there (t := .str) (hs ho) hok h2 (by simp only [Ty.HasTag] at hk; omega) (by rw [hset]; exact hk) hl rest (fun tl full hv hh => ?_)
        show StringContents env (stringKind mp.toFP tl) c c
        rw [stringKind, if_neg (by simp [hset])]
        by_cases hid : mp.hidesKind
        · rw [if_neg (hh hid)]
          by_cases h0 : mp.stringType = 0
          · rw [if_pos h0]; exact .inl ⟨.inl rfl, rfl⟩
          · rw [if_neg h0]
            have : mp.stringType = k := by rcases hst with h | h; exact absurd h h0; exact h
            rw [this]; exact hsc
        · rw [if_pos (hv hid).1, (hv hid).2]; exact hsc

/-- A leaf written without a tag of its own, read into an `interface{}`. -/
theorem any_reads {env : AsnEnv} {menv : MarEnv} {mp : MP} (hok : mp.toFP.Ok) (hm : mp.tag = none) {a : AnyVal} {b rest : Bytes} (h : makeAny menv mp (some a) = .ok b)
    (hl : b.length < 2 ^ 31) (hf : AnyFits env menv mp a) : Reads env .any mp.toFP (some a) (b ++ rest) rest := by
  have he : mp.explicit = false := by
    cases hx : mp.explicit with
    | false => rfl
    | true => exact absurd hm (hok hx)
  have hid : ¬ mp.hidesKind := fun hx => hx.2 hm
  have enc : ∀ (tag : Nat) (c : Bytes), tag < 31 → (tagged mp tag false c).length < 2 ^ 31 → AnyContents env ⟨0, tag, c.length, false⟩ c (some a) →
      Reads env .any mp.toFP (some a) (tagged mp tag false c ++ rest) rest := by
    intro tag c ht hl hc
    rw [tagged, hm] at hl ⊢
    dsimp only at hl ⊢
    rw [List.length_append] at hl
    have : ∀ v : Ty.any.interp, v = some a → Reads env .any mp.toFP v (encodeHeader 0 (tag : Int) c.length false ++ c ++ rest) rest := by
      intro v hv
      rw [Reads]
      subst hv
      exact .inr ⟨_, ⟨0, tag, c.length, false⟩, c, rfl, header_der (by decide) (by omega) (by omega) (by omega), rfl, hc⟩
    exact this _ rfl
  have two : ∀ (t0 : Int) (tg : Except MErr Int) (body : Int → Except MErr Bytes), fieldTagged mp false t0 false tg body = .ok b →
      (∀ t, tg = .ok t → t ≠ 16) → ∃ t c, tg = .ok t ∧ body t = .ok c ∧ b = tagged mp t false c := by
    intro t0 tg body h h16
    rcases fieldTagged_ok h with ⟨ho, rfl⟩ | ⟨ho, t1, t2, c, _, _, e1, hset, hb, rfl⟩
    · cases ho
    · rcases hset with ⟨_, e, _⟩ | ⟨_, rfl⟩
      · exact absurd e (h16 _ e1)
      · exact ⟨_, c, e1, hb, rfl⟩
  cases a with
  | str s =>
    obtain ⟨hf, ho⟩ := hf
    simp only [makeAny, makePrim, ho] at h
    obtain ⟨t, c, e1, e2, rfl⟩ := two _ _ _ h (by
      intro t ht h16
      rw [h16] at ht
      rw [stringTag] at ht
      obtain ⟨_, _, f3⟩ := hf
      split at ht
      · split at ht
        · cases ht
        · split at ht <;> cases ht
      · have ht := Except.ok.inj ht
        simp at f3
        omega)
    obtain ⟨rfl, k, rfl, hk, hsc, hst⟩ := string_contents hf e1 e2
    have hk' : k ∈ [12, 18, 19, 20, 22, 30] := by
      rw [stringTag] at e1
      obtain ⟨_, _, f3⟩ := hf
      by_cases h0 : mp.stringType = 0
      · rw [if_pos h0] at e1
        split at e1
        · have e1 := Except.ok.inj e1; simp; omega
        · split at e1
          · have e1 := Except.ok.inj e1; simp; omega
          · cases e1
      · rw [if_neg h0] at e1
        have e1 := Except.ok.inj e1
        simp at f3
        simp
        omega
    refine enc k c (by simp at hk'; omega) hl ?_
    simp only [AnyContents]
    rw [if_neg (by simp), if_pos hk']
    exact ⟨c, rfl, hsc⟩
  | int i =>
    obtain ⟨hf, ho⟩ := hf
    simp only [makeAny, makePrim, ho] at h
    obtain ⟨t, c, e1, e2, rfl⟩ := two _ _ _ h (by intro t ht; cases ht; decide)
    cases e1; cases e2
    refine enc 2 _ (by decide) hl ?_
    have := encodeInt64_spec hf
    simp only [AnyContents]
    exact ⟨i, rfl, this.1, this.2.2, hf⟩
  | bits i =>
    obtain ⟨hf, ho⟩ := hf
    simp only [makeAny, makePrim, ho] at h
    obtain ⟨t, c, e1, e2, rfl⟩ := two _ _ _ h (by intro t ht; cases ht; decide)
    cases e1; cases e2
    refine enc 3 _ (by decide) hl ?_
    simp only [AnyContents]
    exact ⟨i, rfl, bits_contents hf⟩
  | oid i =>
    obtain ⟨hf, ho⟩ := hf
    simp only [makeAny, makePrim, ho] at h
    obtain ⟨t, c, e1, e2, rfl⟩ := two _ _ _ h (by intro t ht; cases ht; decide)
    cases e1
    obtain ⟨o, x1, x2⟩ := oid_contents hf
    rw [x1] at e2; cases e2
    refine enc 6 _ (by decide) hl ?_
    simp only [AnyContents]
    exact ⟨i, rfl, x2⟩
  | octets i =>
    obtain ⟨hf, ho⟩ := hf
    simp only [makeAny, makePrim, ho] at h
    obtain ⟨t, c, e1, e2, rfl⟩ := two _ _ _ h (by intro t ht; cases ht; decide)
    cases e1; cases e2
    refine enc 4 _ (by decide) hl ?_
    simp [AnyContents]
  | time i =>
    obtain ⟨hf, ho⟩ := hf
    simp only [makeAny, makePrim, ho] at h
    have key : ∃ tag c, menv.timeBytes (decide (mp.timeType = 24)) i = some (tag, c) ∧ b = tagged mp (tag : Int) false c := by
      rcases fieldTagged_ok h with ⟨ho, rfl⟩ | ⟨ho, t1, t2, c, _, _, e1, hset, hb, rfl⟩
      · cases ho
      · rcases hset with ⟨hset, e, _⟩ | ⟨hset, rfl⟩
        · rw [if_pos hset] at e1
          cases e1
          exact absurd e (by decide)
        · rw [if_neg (by simp [hset])] at e1
          cases hm : menv.timeBytes (decide (mp.timeType = 24)) i with
          | none => simp only [timeOf, hm] at e1; cases e1
          | some r =>
            simp only [timeOf, hm] at e1 hb
            cases e1; cases hb
            exact ⟨r.1, r.2, rfl, rfl⟩
    obtain ⟨tag, c, e1, rfl⟩ := key
    rcases hf tag c e1 with ⟨rfl, hu⟩ | ⟨rfl, _, hg⟩
    · refine enc 23 _ (by decide) hl ?_
      simp only [AnyContents]
      exact ⟨i, rfl, hu⟩
    · refine enc 24 _ (by decide) hl ?_
      simp only [AnyContents]
      exact ⟨i, rfl, hg⟩

mutual
theorem makeField_reads (env : AsnEnv) (menv : MarEnv) : (t : Ty) → (mp : MP) → mp.toFP.Ok → (v : t.interp) → (b rest : Bytes) →
    makeField menv t mp v = .ok b → b.length < 2 ^ 31 → Fits env menv t mp v rest →
    ∃ w, Reads env t mp.toFP w (b ++ rest) rest ∧ Same menv.sortSets t mp.set v w
  | .struct raw fs, mp, hok, v, b, rest, h, hl, hf => by
    rw [makeField] at h
    rw [Fits] at hf
    rcases fieldTagged_ok h with ⟨ho, rfl⟩ | ⟨ho, t1, t2, c, _, _, e1, hset, hb, rfl⟩
    · rw [if_pos ho] at hf
      have hz : v = (([] : Bytes), fs.zero) := omits_absent ho
      refine ⟨v, ?_, ?_⟩
      · rw [Reads]; exact .inr ⟨hf, hz, rfl⟩
      · rw [Same]; exact sameAll_refl _ fs v.2
    · rw [if_neg (by rw [ho]; simp)] at hf
      obtain ⟨hsym, hf⟩ := hf
      cases e1
      have hk : ∃ k : Nat, t2 = (k : Int) ∧ k < 2 ^ 31 ∧ (if mp.set then k = 17 else Ty.HasTag (.struct raw fs) k) := by
        rcases hset with ⟨hs, _, rfl⟩ | ⟨hs, rfl⟩
        · exact ⟨17, rfl, by decide, by rw [hs]; rfl⟩
        · exact ⟨16, rfl, by decide, by rw [hs]; rfl⟩
      obtain ⟨k, rfl, hk1, hk2⟩ := hk
      have hcl := Nat.lt_of_le_of_lt tagged_body_le hl
      obtain ⟨tl, hloc, _, _, _⟩ := located_tagged (t := .struct raw fs) hsym hok (by simp) hk1 hk2 hl rest
      have hin : ∃ w2, ReadsAll env fs w2 c ∧ SameAll menv.sortSets fs v.2 w2 := by
        by_cases hraw : raw = true ∧ v.1 ≠ []
        · rw [if_pos hraw] at hf
          obtain ⟨hdr, tl', content, e, hh, hr⟩ := hf
          rw [if_pos (by rw [hraw.1]; simp [hraw.2])] at hb
          cases hb
          have : stripHeader v.1 = content := by rw [stripHeader, e, header_parse hh]
          rw [this]
          exact ⟨v.2, hr, sameAll_refl _ fs v.2⟩
        · rw [if_neg hraw] at hf
          rw [if_neg (by simpa using hraw)] at hb
          obtain ⟨w, r, s⟩ := makeFields_reads env menv fs v.2 c hb hcl hf
          exact ⟨w, r, s⟩
      obtain ⟨w2, r, s⟩ := hin
      refine ⟨(if raw then (tagged mp (k : Int) true c ++ rest).take ((tagged mp (k : Int) true c ++ rest).length - rest.length) else [], w2), ?_, ?_⟩
      · exact reads_struct_of _ hloc r rfl
      · exact same_struct_of _ _ s
  | .slice isSET elem, mp, hok, v, b, rest, h, hl, hf => by
    rw [makeField] at h
    rw [Fits] at hf
    rcases fieldTagged_ok h with ⟨ho, rfl⟩ | ⟨ho, t1, t2, c, _, _, e1, hset, hb, rfl⟩
    · rw [if_pos ho] at hf
      have hz : v = [] := omits_absent ho
      refine ⟨v, ?_, ?_⟩
      · rw [Reads]; exact .inr ⟨hf, hz, rfl⟩
      · rw [Same]
        subst hz
        exact ⟨[], by split; exact .refl _; rfl, .nil⟩
    · rw [if_neg (by rw [ho]; simp)] at hf
      obtain ⟨hsym, hany, hall⟩ := hf
      cases e1
      have hk : ∃ k : Nat, t2 = (k : Int) ∧ k < 2 ^ 31 ∧ (if mp.set then k = 17 else Ty.HasTag (.slice isSET elem) k) ∧ (t2 = 17 ↔ (mp.set || isSET) = true) := by
        rcases hset with ⟨hs, _, rfl⟩ | ⟨hs, rfl⟩
        · exact ⟨17, rfl, by decide, by rw [hs]; rfl, by simp [hs]⟩
        · cases isSET with
          | true => exact ⟨17, rfl, by decide, by rw [hs]; rfl, by simp⟩
          | false => exact ⟨16, rfl, by decide, by rw [hs]; rfl, by simp [hs]⟩
      obtain ⟨k, rfl, hk1, hk2, hk3⟩ := hk
      have hcl := Nat.lt_of_le_of_lt tagged_body_le hl
      obtain ⟨tl, hloc, _, _, _⟩ := located_tagged (t := .slice isSET elem) hsym hok (by simp) hk1 hk2 hl rest
      cases hel : makeElems (makeField menv elem {}) v with
      | error e => rw [hel] at hb; cases hb
      | ok bs =>
        rw [hel] at hb
        have hb : (if (menv.sortSets && decide ((k : Int) = 17)) = true then encodeSet bs else bs.flatten) = c := Except.ok.inj hb
        have rel := elems_rel hel
        have hP : ∀ (x : elem.interp) (b rest : Bytes), makeField menv elem {} x = .ok b → (∀ r, Fits env menv elem {} x r) → b.length < 2 ^ 31 →
            ∃ w, Reads env elem {} w (b ++ rest) rest ∧ Same menv.sortSets elem false x w ∧ b ++ rest ≠ [] := by
          intro x b rest hx hq hbl
          obtain ⟨w, r, s⟩ := makeField_reads env menv elem {} empty_ok x b rest hx hbl (hq rest)
          obtain ⟨tl, inner, hlo⟩ := reads_elem hany r
          exact ⟨w, r, s, hlo.ne⟩
        have hmem := allOf_mem.1 hall
        have hin : ∃ (u : List elem.interp) (bs' : List Bytes), (if (menv.sortSets && (mp.set || isSET)) = true then List.Perm u v else u = v) ∧
            ListRel (fun x b => makeField menv elem {} x = .ok b) u bs' ∧ c = bs'.flatten := by
          by_cases hsort : (menv.sortSets && decide ((k : Int) = 17)) = true
          · rw [if_pos hsort] at hb
            rw [Bool.and_eq_true, decide_eq_true_eq] at hsort
            obtain ⟨u, p, r⟩ := listRel_perm (setSort_self_perm bs).symm rel
            exact ⟨u, _, by rw [if_pos (by rw [hsort.1, hk3.1 hsort.2]; rfl)]; exact p, r, hb.symm⟩
          · rw [if_neg hsort] at hb
            refine ⟨v, bs, ?_, rel, hb.symm⟩
            split
            · exact .refl _
            · rfl
        obtain ⟨u, bs', hp, r, rfl⟩ := hin
        have hmem' : ∀ x ∈ u, ∀ r, Fits env menv elem {} x r := by
          intro x hx
          by_cases hc : (menv.sortSets && (mp.set || isSET)) = true
          · rw [if_pos hc] at hp; exact hmem x (hp.mem_iff.1 hx)
          · rw [if_neg hc] at hp; subst hp; exact hmem x hx
        obtain ⟨ws, rr, ss⟩ := seq_reads hP r hmem' hcl
        refine ⟨ws, ?_, ?_⟩
        · exact reads_slice_of _ hloc hany ss
        · exact same_slice_of _ _ u hp rr
  | .oid, mp, hok, v, b, rest, h, hl, hf => by
    rw [makeField] at h
    · exact ⟨v, reads_leaf (by simp [IsLeaf]) (prim_reads (by simp [IsLeaf]) hok h hl (fits_leaf (by simp [IsLeaf]) hf)), same_refl _ _ _ v⟩
    all_goals simp
  | .bits, mp, hok, v, b, rest, h, hl, hf => by
    rw [makeField] at h
    · exact ⟨v, reads_leaf (by simp [IsLeaf]) (prim_reads (by simp [IsLeaf]) hok h hl (fits_leaf (by simp [IsLeaf]) hf)), same_refl _ _ _ v⟩
    all_goals simp
  | .time, mp, hok, v, b, rest, h, hl, hf => by
    rw [makeField] at h
    · exact ⟨v, reads_leaf (by simp [IsLeaf]) (prim_reads (by simp [IsLeaf]) hok h hl (fits_leaf (by simp [IsLeaf]) hf)), same_refl _ _ _ v⟩
    all_goals simp
  | .enumerated, mp, hok, v, b, rest, h, hl, hf => by
    rw [makeField] at h
    · exact ⟨v, reads_leaf (by simp [IsLeaf]) (prim_reads (by simp [IsLeaf]) hok h hl (fits_leaf (by simp [IsLeaf]) hf)), same_refl _ _ _ v⟩
    all_goals simp
  | .flag, mp, hok, v, b, rest, h, hl, hf => by
    rw [makeField] at h
    · exact ⟨v, reads_leaf (by simp [IsLeaf]) (prim_reads (by simp [IsLeaf]) hok h hl (fits_leaf (by simp [IsLeaf]) hf)), same_refl _ _ _ v⟩
    all_goals simp
  | .bigInt, mp, hok, v, b, rest, h, hl, hf => by
    rw [makeField] at h
    · exact ⟨v, reads_leaf (by simp [IsLeaf]) (prim_reads (by simp [IsLeaf]) hok h hl (fits_leaf (by simp [IsLeaf]) hf)), same_refl _ _ _ v⟩
    all_goals simp
  | .bool, mp, hok, v, b, rest, h, hl, hf => by
    rw [makeField] at h
    · exact ⟨v, reads_leaf (by simp [IsLeaf]) (prim_reads (by simp [IsLeaf]) hok h hl (fits_leaf (by simp [IsLeaf]) hf)), same_refl _ _ _ v⟩
    all_goals simp
  | .int, mp, hok, v, b, rest, h, hl, hf => by
    rw [makeField] at h
    · exact ⟨v, reads_leaf (by simp [IsLeaf]) (prim_reads (by simp [IsLeaf]) hok h hl (fits_leaf (by simp [IsLeaf]) hf)), same_refl _ _ _ v⟩
    all_goals simp
  | .int32, mp, hok, v, b, rest, h, hl, hf => by
    rw [makeField] at h
    · exact ⟨v, reads_leaf (by simp [IsLeaf]) (prim_reads (by simp [IsLeaf]) hok h hl (fits_leaf (by simp [IsLeaf]) hf)), same_refl _ _ _ v⟩
    all_goals simp
  | .octets, mp, hok, v, b, rest, h, hl, hf => by
    rw [makeField] at h
    · exact ⟨v, reads_leaf (by simp [IsLeaf]) (prim_reads (by simp [IsLeaf]) hok h hl (fits_leaf (by simp [IsLeaf]) hf)), same_refl _ _ _ v⟩
    all_goals simp
  | .str, mp, hok, v, b, rest, h, hl, hf => by
    rw [makeField] at h
    · exact ⟨v, reads_leaf (by simp [IsLeaf]) (prim_reads (by simp [IsLeaf]) hok h hl (fits_leaf (by simp [IsLeaf]) hf)), same_refl _ _ _ v⟩
    all_goals simp
  | .any, mp, hok, v, b, rest, h, hl, hf => by
    rw [makeField] at h
    rw [Fits] at hf
    obtain ⟨hm, a, rfl, hf⟩ := hf
    exact ⟨some a, any_reads hok hm h hl hf, same_refl _ .any _ (some a)⟩
  | .rawValue, mp, hok, v, b, rest, h, hl, hf => by
    rw [makeField] at h
    · rw [Fits] at hf
      simp only [makePrim] at h
      by_cases ho : Ty.omits mp .rawValue v = true
      · rw [if_pos ho] at h hf
        cases h
        refine ⟨v, ?_, same_refl _ _ _ v⟩
        rw [Reads]
        · exact .inr (.inl ⟨hf, omits_absent ho, rfl⟩)
        all_goals simp
      · rw [if_neg ho] at h hf
        cases h
        obtain ⟨w, r, s⟩ := raw_reads (env := env) hf hl
        have : ∀ w' : Ty.rawValue.interp, w' = w → Reads env .rawValue mp.toFP w' (rawBytes v ++ rest) rest ∧ Same menv.sortSets .rawValue mp.set v w' := by
          intro w' hw
          rw [Same, Reads]
          · subst hw; exact ⟨r, s⟩
          all_goals simp
        exact ⟨w, this w rfl⟩
    all_goals simp

theorem makeFields_reads (env : AsnEnv) (menv : MarEnv) : (fs : Fields) → (v : fs.interp) → (b : Bytes) → makeFields menv fs v = .ok b → b.length < 2 ^ 31 →
    FitsAll env menv fs v → ∃ w, ReadsAll env fs w b ∧ SameAll menv.sortSets fs v w
  | .nil, v, b, _, _, _ => ⟨v, by rw [ReadsAll]; trivial, by rw [SameAll]; trivial⟩
  | .cons tag t fs, v, b, h, hl, hf => by
    rw [makeFields] at h
    rw [FitsAll] at hf
    obtain ⟨b1, h1, h⟩ := bind_ok h
    obtain ⟨b2, h2, h⟩ := bind_ok h
    cases h
    rw [List.length_append] at hl
    obtain ⟨w1, r1, s1⟩ := makeField_reads env menv t (parseMP tag) (parseFP_ok tag) v.1 b1 b2 h1 (by omega) (hf.1 b2 h2)
    obtain ⟨w2, r2, s2⟩ := makeFields_reads env menv fs v.2 b2 h2 (by omega) hf.2
    refine ⟨(w1, w2), ?_, ?_⟩
    · exact readsAll_cons_of _ r1 r2
    · exact sameAll_cons_of _ _ s1 s2
end

end Mar
end Apk
