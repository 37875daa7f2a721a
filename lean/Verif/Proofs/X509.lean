import Verif.Proofs.DerEnc
/-! # Parsing certificates, keys and PKCS#7 messages never panics; what success means -/
namespace Apk

theorem unmAll_iff {env : AsnEnv} {t : Ty} {b : Bytes} {v : t.interp} : unmAll env t b = .ok (some v) ↔ Reads env t {} v b [] := by
  rw [← C54_accepts_exactly_the_grammar]
  unfold unmAll
  obtain ⟨w, r, h⟩ := C54_unmarshal_total env t b
  rw [h]
  cases r with
  | error e => simp
  | ok rest =>
    by_cases hr : rest = []
    · subst hr; simp
    · simp [hr]

theorem unmFirst_iff {env : AsnEnv} {t : Ty} {b : Bytes} {v : t.interp} {rest : Bytes} :
    unmFirst env t b = .ok (some (v, rest)) ↔ Reads env t {} v b rest := by
  rw [← C54_accepts_exactly_the_grammar]
  unfold unmFirst
  obtain ⟨w, r, h⟩ := C54_unmarshal_total env t b
  rw [h]
  cases r with
  | error e => simp
  | ok rest => simp

theorem unmAll_total (env : AsnEnv) (t : Ty) (b : Bytes) : ∃ r, unmAll env t b = .ok r := by
  unfold unmAll
  obtain ⟨w, r, h⟩ := C54_unmarshal_total env t b
  rw [h]
  cases r with
  | error e => exact ⟨_, rfl⟩
  | ok rest => by_cases hr : rest = [] <;> simp [hr]

theorem unmFirst_total (env : AsnEnv) (t : Ty) (b : Bytes) : ∃ r, unmFirst env t b = .ok r := by
  unfold unmFirst
  obtain ⟨w, r, h⟩ := C54_unmarshal_total env t b
  rw [h]
  cases r <;> exact ⟨_, rfl⟩

/-- A big integer that was read is not nil. -/
theorem readsAll_big {env : AsnEnv} {fs : Fields} {v1 : Option Int} {v2 : fs.interp} {b : Bytes}
    (h : ReadsAll env (.cons [] .bigInt fs) ((v1, v2) : Option Int × fs.interp) b) : ∃ i rest, v1 = some i ∧ ReadsAll env fs v2 rest := by
  obtain ⟨rest, h1, h2⟩ := readsAll_cons.1 h
  rw [fp_empty] at h1
  rcases (reads_prim (t := .bigInt) (by simp) (by simp) (by simp)).1 h1 with ⟨_, _, _, i, hi, _⟩ | ⟨h, _⟩ | ⟨h, _⟩
  · exact ⟨i, rest, hi, h2⟩
  · exact absurd (absent_optional h) (by simp)
  · cases h

theorem reads_struct_inv {env : AsnEnv} {raw : Bool} {fs : Fields} {v : (Ty.struct raw fs).interp} {b rest : Bytes}
    (h : Reads env (.struct raw fs) {} v b rest) : ∃ inner, ReadsAll env fs v.2 inner := by
  rw [Reads] at h
  rcases h with ⟨tl, inner, _, h, _⟩ | ⟨h, _⟩
  · exact ⟨inner, h⟩
  · exact absurd (absent_optional h) (by simp)

theorem reads_two_bigs {env : AsnEnv} {v : rsTy.interp} {b rest : Bytes} (h : Reads env rsTy {} v b rest) :
    ∃ r s : Int, v.2.1 = some r ∧ v.2.2.1 = some s := by
  obtain ⟨inner, h⟩ := reads_struct_inv h
  obtain ⟨r, rest, h1, h2⟩ := readsAll_big (v1 := v.2.1) (v2 := v.2.2) h
  obtain ⟨s, _, h3, _⟩ := readsAll_big (v1 := v.2.2.1) (v2 := v.2.2.2) h2
  exact ⟨r, s, h1, h3⟩

theorem rsParse_total (env : AsnEnv) (b : Bytes) : ∃ r, rsParse env b = .ok r := by
  unfold rsParse
  obtain ⟨r, h⟩ := unmFirst_total env rsTy b
  rw [h]
  cases r with
  | none => exact ⟨_, rfl⟩
  | some p =>
    obtain ⟨v, rest⟩ := p
    obtain ⟨x, y, h1, h2⟩ := reads_two_bigs (unmFirst_iff.1 h)
    simp only [h1, h2]
    exact ⟨_, rfl⟩

theorem rsaKeyOf_total (n e : Int) : ∃ r, rsaKeyOf (some n) e = .ok r := by
  unfold rsaKeyOf
  by_cases h1 : e ≤ 0
  · exact ⟨_, if_pos h1⟩
  · by_cases h2 : n ≤ 0
    · exact ⟨_, (if_neg h1).trans (if_pos h2)⟩
    · exact ⟨_, (if_neg h1).trans (if_neg h2)⟩

theorem dsaKeyOf_total (p q g y : Int) : ∃ r, dsaKeyOf (some p) (some q) (some g) (some y) = .ok r := by
  unfold dsaKeyOf
  by_cases hc : y ≤ 0 ∨ p ≤ 0 ∨ q ≤ 0 ∨ g ≤ 0
  · exact ⟨_, if_pos hc⟩
  · exact ⟨_, if_neg hc⟩

theorem parseKey_total (env : CertEnv) (algo : PKAlgo) (algId : AlgId) (bits : BitStr) : ∃ r, parseKey env algo algId bits = .ok r := by
  unfold parseKey
  cases algo with
  | unknown => exact ⟨_, rfl⟩
  | rsa =>
    obtain ⟨r, h⟩ := unmAll_total env.toAsnEnv pkcs1PublicKeyTy (rightAlign bits)
    simp only [h]
    cases r with
    | none => exact ⟨_, rfl⟩
    | some v =>
      obtain ⟨inner, hr⟩ := reads_struct_inv (unmAll_iff.1 h)
      obtain ⟨n, _, hn, _⟩ := readsAll_big (v1 := v.2.1) (v2 := v.2.2) hr
      simp only [hn]
      exact rsaKeyOf_total n _
  | dsa =>
    obtain ⟨r, h⟩ := unmAll_total env.toAsnEnv .bigInt (rightAlign bits)
    simp only [h]
    cases r with
    | none => exact ⟨_, rfl⟩
    | some y =>
      obtain ⟨r2, h2⟩ := unmAll_total env.toAsnEnv dsaParamsTy algId.params.full
      simp only [h2]
      cases r2 with
      | none => exact ⟨_, rfl⟩
      | some v =>
        have hy : ∃ i : Int, y = some i := by
          rcases (reads_prim (t := .bigInt) (by simp) (by simp) (by simp)).1 (unmAll_iff.1 h) with ⟨_, _, _, i, hi, _⟩ | ⟨h, _⟩ | ⟨h, _⟩
          · exact ⟨i, hi⟩
          · exact absurd (absent_optional h) (by simp)
          · cases h
        obtain ⟨yi, hy⟩ := hy
        obtain ⟨inner, hr⟩ := reads_struct_inv (unmAll_iff.1 h2)
        obtain ⟨p, _, hp, h3⟩ := readsAll_big (v1 := v.2.1) (v2 := v.2.2) hr
        obtain ⟨q, _, hq, h4⟩ := readsAll_big (v1 := v.2.2.1) (v2 := v.2.2.2) h3
        obtain ⟨g, _, hg, _⟩ := readsAll_big (v1 := v.2.2.2.1) (v2 := v.2.2.2.2) h4
        simp only [hp, hq, hg, hy]
        exact dsaKeyOf_total p q g yi
  | ecdsa =>
    obtain ⟨r, h⟩ := unmAll_total env.toAsnEnv .oid algId.params.full
    simp only [h]
    cases r with
    | none => exact ⟨_, rfl⟩
    | some c =>
      by_cases hk : knownCurve c = true
      · cases hp : env.point c (rightAlign bits) with
        | none => exact ⟨_, (if_pos hk).trans (by rw [hp])⟩
        | some xy => exact ⟨_, (if_pos hk).trans (by rw [hp])⟩
      · exact ⟨_, if_neg hk⟩

theorem parsePKIXKey_total (env : CertEnv) (der : Bytes) : ∃ r, parsePKIXKey env der = .ok r := by
  unfold parsePKIXKey
  obtain ⟨r, h⟩ := unmAll_total env.toAsnEnv publicKeyInfoTy der
  rw [h]
  cases r with
  | none => exact ⟨_, rfl⟩
  | some v =>
    obtain ⟨_, alg, bits, ⟨⟩⟩ := v
    by_cases hu : pkAlgo (AlgId.of alg).oid = .unknown
    · exact ⟨_, if_pos hu⟩
    · obtain ⟨k, hk⟩ := parseKey_total env (pkAlgo (AlgId.of alg).oid) (AlgId.of alg) bits
      cases k with
      | none => exact ⟨_, (if_neg hu).trans (by rw [hk])⟩
      | some k => exact ⟨_, (if_neg hu).trans (by rw [hk])⟩

theorem sigAlgOf_total (env : AsnEnv) (ai : AlgId) : ∃ r, sigAlgOf env ai = .ok r := by
  unfold sigAlgOf
  by_cases h0 : ai.oid ≠ [1,2,840,113549,1,1,10]
  · exact ⟨_, if_pos h0⟩
  · rw [if_neg h0]
    obtain ⟨r, h⟩ := unmFirst_total env pssParametersTy ai.params.full
    rw [h]
    cases r with
    | none => exact ⟨_, rfl⟩
    | some p =>
      obtain ⟨v, rest⟩ := p
      obtain ⟨r2, h2⟩ := unmFirst_total env algIdTy (AlgId.of v.2.2.1).params.full
      simp only [h2]
      cases r2 with
      | none => exact ⟨_, rfl⟩
      | some p => exact ⟨_, rfl⟩

theorem sanLoop_total (env : AsnEnv) : ∀ (fuel : Nat) (b : Bytes) (n : Nat), ∃ r, sanLoop env fuel b n = .ok r
  | 0, _, n => ⟨some n, rfl⟩
  | fuel + 1, b, n => by
    unfold sanLoop
    by_cases hb : b = []
    · exact ⟨_, if_pos hb⟩
    · rw [if_neg hb]
      obtain ⟨r, h⟩ := unmFirst_total env .rawValue b
      rw [h]
      cases r with
      | none => exact ⟨_, rfl⟩
      | some p =>
        obtain ⟨v, rest⟩ := p
        have ih := sanLoop_total env fuel rest
        show ∃ r, (if RawVal.tag v = 1 ∨ RawVal.tag v = 2 then sanLoop env fuel rest (n + 1)
          else if RawVal.tag v = 7 then
            (if (RawVal.bytes v).length = 4 ∨ (RawVal.bytes v).length = 16 then sanLoop env fuel rest (n + 1) else .ok none)
          else sanLoop env fuel rest n) = .ok r
        split
        · exact ih _
        · split
          · split
            · exact ih _
            · exact ⟨_, rfl⟩
          · exact ih _

theorem parseSAN_total (env : AsnEnv) (value : Bytes) : ∃ r, parseSAN env value = .ok r := by
  unfold parseSAN
  obtain ⟨r, h⟩ := unmAll_total env .rawValue value
  rw [h]
  cases r with
  | none => exact ⟨_, rfl⟩
  | some seq =>
    show ∃ r, (if (!RawVal.isCompound seq || decide (RawVal.tag seq ≠ 16) || decide (RawVal.cls seq ≠ 0)) = true then .ok none
      else sanLoop env (RawVal.bytes seq).length (RawVal.bytes seq) 0) = .ok r
    split
    · exact ⟨_, rfl⟩
    · exact sanLoop_total _ _ _ _

theorem handledIf_total {α : Type} {x : Go (Option α)} (h : ∃ r, x = .ok r) : ∃ r, handledIf x = .ok r := by
  obtain ⟨r, rfl⟩ := h
  cases r <;> exact ⟨_, rfl⟩

theorem dpsOk_total (env : AsnEnv) : ∀ l, ∃ r, dpsOk env l = .ok r
  | [] => ⟨_, rfl⟩
  | dp :: dps => by
    have ih := dpsOk_total env dps
    unfold dpsOk
    by_cases hb : dp.2.1.2.1.bytes = []
    · rw [if_pos hb]; exact ih
    · rw [if_neg hb]
      obtain ⟨r, h⟩ := unmFirst_total env .rawValue dp.2.1.2.1.bytes
      rw [h]
      cases r with
      | none => exact ⟨_, rfl⟩
      | some p => exact ih

theorem ite_total {α : Type} {c : Prop} [Decidable c] {x y : Go α} (hx : ∃ r, x = .ok r) (hy : ∃ r, y = .ok r) : ∃ r, (if c then x else y) = .ok r := by
  split
  · exact hx
  · exact hy

theorem extensionStep_total (env : AsnEnv) (id : List Nat) (critical : Bool) (value : Bytes) : ∃ r, extensionStep env id critical value = .ok r := by
  unfold extensionStep
  refine ite_total (handledIf_total (unmAll_total _ _ _)) (ite_total (handledIf_total (unmAll_total _ _ _)) (ite_total ?_ (ite_total ?_ (ite_total ?_
    (ite_total (handledIf_total (unmAll_total _ _ _)) (ite_total (handledIf_total (unmAll_total _ _ _)) (ite_total (handledIf_total (unmAll_total _ _ _))
    (ite_total (handledIf_total (unmAll_total _ _ _)) (ite_total (handledIf_total (unmAll_total _ _ _)) ⟨_, rfl⟩)))))))))
  · obtain ⟨r, h⟩ := parseSAN_total env value
    rw [h]
    cases r <;> exact ⟨_, rfl⟩
  · obtain ⟨r, h⟩ := unmAll_total env nameConstraintsTy value
    rw [h]
    cases r with
    | none => exact ⟨_, rfl⟩
    | some v =>
      obtain ⟨_, p, e, ⟨⟩⟩ := v
      exact ite_total ⟨_, rfl⟩ ⟨_, rfl⟩
  · obtain ⟨r, h⟩ := unmAll_total env (.slice false dpTy) value
    rw [h]
    cases r with
    | none => exact ⟨_, rfl⟩
    | some v => exact handledIf_total (dpsOk_total _ _)

theorem extensionLoop_total (env : AsnEnv) : ∀ (l : List (Bytes × List Nat × Bool × Bytes × Unit)) (crit : Bool), ∃ r, extensionLoop env l crit = .ok r
  | [], _ => ⟨_, rfl⟩
  | e :: es, crit => by
    unfold extensionLoop
    obtain ⟨r, h⟩ := extensionStep_total env e.2.1 e.2.2.1 e.2.2.2.1
    rw [h]
    cases r with
    | none => exact ⟨_, rfl⟩
    | some u => exact extensionLoop_total env es _

theorem parseCertStruct_total (env : CertEnv) (c : CertV) : ∃ r, parseCertStruct env c = .ok r := by
  unfold parseCertStruct
  obtain ⟨sa, h⟩ := sigAlgOf_total env.toAsnEnv c.sigAlg
  obtain ⟨k, hk⟩ := parseKey_total env (pkAlgo c.keyAlg.oid) c.keyAlg c.keyBits
  obtain ⟨s, hs⟩ := unmAll_total env.toAsnEnv rdnsTy c.subject
  obtain ⟨i, hi⟩ := unmAll_total env.toAsnEnv rdnsTy c.issuer
  obtain ⟨x, hx⟩ := extensionLoop_total env.toAsnEnv c.extensions false
  rw [h]
  simp only [hk]
  rcases k with _ | ⟨k, re⟩
  · exact ⟨_, rfl⟩
  simp only [hs]
  cases s with
  | none => exact ⟨_, rfl⟩
  | some s =>
    simp only [hi]
    cases i with
    | none => exact ⟨_, rfl⟩
    | some i =>
      simp only [hx]
      cases x <;> exact ⟨_, rfl⟩

theorem parseCert509_total (env : CertEnv) (b : Bytes) : ∃ r, parseCert509 env b = .ok r := by
  unfold parseCert509
  obtain ⟨r, h⟩ := unmAll_total env.toAsnEnv certificateTy b
  rw [h]
  cases r with
  | none => exact ⟨_, rfl⟩
  | some c => exact parseCertStruct_total _ _

theorem splitCerts_total (env : CertEnv) : ∀ (fuel : Nat) (b : Bytes), ∃ r, splitCerts env fuel b = .ok r
  | 0, _ => ⟨_, rfl⟩
  | fuel + 1, b => by
    unfold splitCerts
    by_cases hb : b = []
    · exact ⟨_, if_pos hb⟩
    · rw [if_neg hb]
      obtain ⟨r, h⟩ := unmFirst_total env.toAsnEnv certificateTy b
      rw [h]
      cases r with
      | none => exact ⟨_, rfl⟩
      | some p =>
        obtain ⟨c, rest⟩ := p
        obtain ⟨r2, h2⟩ := splitCerts_total env fuel rest
        simp only [h2]
        cases r2 <;> exact ⟨_, rfl⟩

theorem parseCertStructs_total (env : CertEnv) : ∀ (l : List CertV), ∃ r, parseCertStructs env l = .ok r
  | [] => ⟨_, rfl⟩
  | c :: cs => by
    unfold parseCertStructs
    obtain ⟨r, h⟩ := parseCertStruct_total env c
    rw [h]
    rcases r with _ | ⟨c, k⟩
    · exact ⟨_, rfl⟩
    · obtain ⟨r2, h2⟩ := parseCertStructs_total env cs
      simp only [h2]
      cases r2 <;> exact ⟨_, rfl⟩

theorem parseCerts509_total (env : CertEnv) (b : Bytes) : ∃ r, parseCerts509 env b = .ok r := by
  unfold parseCerts509
  obtain ⟨r, h⟩ := splitCerts_total env b.length b
  rw [h]
  cases r with
  | none => exact ⟨_, rfl⟩
  | some cs => exact parseCertStructs_total _ _

theorem parseRawCerts_total (env : CertEnv) (raw : Bytes) : ∃ r, parseRawCerts env raw = .ok r := by
  unfold parseRawCerts
  by_cases hb : raw = []
  · exact ⟨_, if_pos hb⟩
  · rw [if_neg hb]
    obtain ⟨r, h⟩ := unmFirst_total env.toAsnEnv .rawValue raw
    rw [h]
    rcases r with _ | ⟨v, rest⟩
    · exact ⟨_, rfl⟩
    · exact parseCerts509_total _ _

theorem contentReadable_total (env : AsnEnv) (content : RawVal) : ∃ r, contentReadable env content = .ok r := by
  unfold contentReadable
  by_cases hb : content.bytes = []
  · exact ⟨_, if_pos hb⟩
  · rw [if_neg hb]
    obtain ⟨r, h⟩ := unmFirst_total env .rawValue content.bytes
    rw [h]
    rcases r with _ | ⟨v, rest⟩
    · exact ⟨_, rfl⟩
    · refine ite_total ?_ ⟨_, rfl⟩
      obtain ⟨r2, h2⟩ := unmFirst_total env .octets (RawVal.bytes v)
      rw [h2]
      cases r2 <;> exact ⟨_, rfl⟩

theorem parseSignedData_total (env : CertEnv) (data : Bytes) : ∃ r, parseSignedData env data = .ok r := by
  unfold parseSignedData
  obtain ⟨v, r, h⟩ := C54_unmarshal_total env.toAsnEnv signedDataTy data
  rw [h]
  obtain ⟨c, hc⟩ := parseRawCerts_total env (SignedV.of v).certs
  obtain ⟨ok, hok⟩ := contentReadable_total env.toAsnEnv (SignedV.of v).content
  simp only [hc]
  cases c with
  | none => exact ⟨_, rfl⟩
  | some cs =>
    simp only [hok]
    cases ok <;> exact ⟨_, rfl⟩

theorem parseEnveloped_total (env : CertEnv) (data : Bytes) : ∃ r, parseEnveloped env data = .ok r := by
  unfold parseEnveloped
  obtain ⟨r, h⟩ := unmFirst_total env.toAsnEnv envelopedTy data
  rw [h]
  cases r <;> exact ⟨_, rfl⟩

theorem dispatchP7_total (env : CertEnv) (oid : List Nat) (content : RawVal) : ∃ r, dispatchP7 env oid content = .ok r := by
  unfold dispatchP7
  exact ite_total (parseSignedData_total _ _) (ite_total (parseEnveloped_total _ _) ⟨_, rfl⟩)

theorem parseP7Der_total (env : CertEnv) (der : Bytes) : ∃ r, parseP7Der env der = .ok r := by
  unfold parseP7Der
  obtain ⟨r, h⟩ := unmAll_total env.toAsnEnv contentInfoTy der
  rw [h]
  cases r with
  | none => exact ⟨_, rfl⟩
  | some v => exact dispatchP7_total _ _ _

theorem rdnsParse_total (env : AsnEnv) (b : Bytes) : ∃ r, rdnsParse env b = .ok r := by
  unfold rdnsParse
  obtain ⟨r, h⟩ := unmFirst_total env rdnsTy b
  rw [h]
  rcases r with _ | ⟨v, rest⟩ <;> exact ⟨_, rfl⟩

theorem unmValue_total (env : AsnEnv) (t : Ty) (b : Bytes) : ∃ r, unmValue env t b = .ok r := by
  unfold unmValue
  obtain ⟨r, h⟩ := unmFirst_total env t b
  rw [h]
  rcases r with _ | ⟨v, rest⟩ <;> exact ⟨_, rfl⟩

theorem marshalAuthAttrs_total (env : AsnEnv) (l : List P7Attr) : ∃ r, marshalAuthAttrs env l = .ok r := by
  unfold marshalAuthAttrs
  cases marshalAttrList l with
  | none => exact ⟨_, rfl⟩
  | some body =>
    obtain ⟨v, r, h⟩ := C54_unmarshal_total env .rawValue (tlv 0 true 16 (tlv 0 true 17 body))
    simp only [h]
    exact ⟨_, rfl⟩

end Apk
