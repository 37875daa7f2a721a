import Verif.Proofs.CertFull
import Verif.Props.X509
/-! # C80: every field of a certificate that verification returns -/
namespace Apk

/-- C80: a certificate is accepted exactly if it is one, and then every field of the result is what the certificate says. -/
theorem C80_certificate_iff {ce : CertEnv} {b : Bytes} {x : CertFull} : parseFull ce b = .ok (some x) ↔ FullCertificateIs ce b x := parseFull_iff

/-- C80: the fields are determined by the bytes. -/
theorem C80_certificate_unique {ce : CertEnv} {b : Bytes} {x x' : CertFull} (h : FullCertificateIs ce b x) (h' : FullCertificateIs ce b x') : x = x' := full_unique h h'

theorem parseFull_total (ce : CertEnv) (b : Bytes) : ∃ r, parseFull ce b = .ok r := by
  obtain ⟨r, hr⟩ := parseCert509_total ce b
  rcases r with _ | ⟨cert, k⟩
  · unfold parseCert509 at hr
    unfold parseFull
    obtain ⟨r, hu⟩ := unmAll_total ce.toAsnEnv certificateTy b
    rw [hu] at hr ⊢
    rcases r with _ | c
    · exact ⟨_, rfl⟩
    · have hr : parseCertStruct ce (CertV.of c) = .ok none := hr
      refine ⟨none, ?_⟩
      show parseFullStruct ce c = _
      unfold parseFullStruct
      rw [hr]
  · obtain ⟨x, hx, _⟩ := parseFull_of hr
    exact ⟨_, hx⟩

/-- C80: everything else is refused with an error, never a panic. -/
theorem C80_certificate_refused {ce : CertEnv} {b : Bytes} : parseFull ce b = .ok none ↔ ¬ ∃ x, FullCertificateIs ce b x := by
  obtain ⟨r, hr⟩ := parseFull_total ce b
  rw [hr]
  rcases r with _ | x
  · simp only [true_iff]
    rintro ⟨x, h⟩
    rw [parseFull_iff.2 h] at hr
    cases hr
  · simp only [Except.ok.injEq, reduceCtorEq, false_iff, Classical.not_not]
    exact ⟨x, parseFull_iff.1 hr⟩

/-- C80: the fields the verifier looks at (C65) are those of the complete certificate, and the certificate counts as one with unhandled
    critical extensions exactly if the list of them is not empty. -/
theorem C80_verifier_fields {ce : CertEnv} {b : Bytes} {cert : Cert} {k : Key} : CertificateIs ce b cert k ↔
    ∃ x, FullCertificateIs ce b x ∧ x.base = cert ∧ x.key = k ∧ (cert.critExt = true ↔ x.ext.unhandled ≠ []) := by
  constructor
  · intro h
    obtain ⟨x, hx, h1, h2, h3⟩ := parseFull_of (parseCert509_iff.2 h)
    exact ⟨x, parseFull_iff.1 hx, h1, h2, h3⟩
  · rintro ⟨x, h, rfl, rfl, _⟩
    exact h.1

/-- C80: the certificate that is returned is the one that was read without its extended key usages. -/
theorem C80_for_go {ce : CertEnv} {b : Bytes} {y : CertFull} : parseForGo ce b = .ok (some y) ↔
    ∃ x, FullCertificateIs ce b x ∧ y.base = x.base ∧ y.key = x.key ∧ y.keyAlgo = x.keyAlgo ∧ y.rawTbs = x.rawTbs ∧ y.rawSubject = x.rawSubject ∧
      y.rawIssuer = x.rawIssuer ∧ y.signature = x.signature ∧ y.version = x.version ∧ y.extensions = x.extensions ∧ y.ext.extKeyUsage = [] ∧
      ∃ us, x.ext = { y.ext with extKeyUsage := us } := by
  unfold parseForGo
  obtain ⟨r, hr⟩ := parseFull_total ce b
  rw [hr]
  rcases r with _ | x
  · simp only [Except.ok.injEq, reduceCtorEq, false_iff]
    rintro ⟨x, h, _⟩
    rw [parseFull_iff.2 h] at hr
    cases hr
  · simp only [Except.ok.injEq, Option.some.injEq]
    constructor
    · rintro rfl
      exact ⟨x, parseFull_iff.1 hr, rfl, rfl, rfl, rfl, rfl, rfl, rfl, rfl, rfl, rfl, x.ext.extKeyUsage, rfl⟩
    · rintro ⟨x', h, h1, h2, h3, h4, h5, h6, h7, h8, h9, h10, us, h11⟩
      cases full_unique h (parseFull_iff.1 hr)
      obtain ⟨base, key, ka, tbs, su, is, sg, ve, es, ext⟩ := x
      obtain ⟨base', key', ka', tbs', su', is', sg', ve', es', ext'⟩ := y
      simp only at h1 h2 h3 h4 h5 h6 h7 h8 h9 h10 h11
      subst h1 h2 h3 h4 h5 h6 h7 h8 h9 h11
      unfold CertFull.forGo
      cases ext'
      simp only at h10
      subst h10
      rfl

theorem parseForGo_some {ce : CertEnv} {b : Bytes} {y : CertFull} : parseForGo ce b = .ok (some y) ↔
    ∃ c, Reads ce.toAsnEnv certificateTy {} c b [] ∧ ∃ x, parseFullStruct ce c = .ok (some x) ∧ y = x.forGo := by
  unfold parseForGo parseFull
  obtain ⟨r, hr⟩ := unmAll_total ce.toAsnEnv certificateTy b
  rw [hr]
  rcases r with _ | c
  · simp only [Except.ok.injEq, reduceCtorEq, false_iff]
    rintro ⟨c, hc, _⟩
    rw [unmAll_iff.2 hc] at hr
    cases hr
  · have hc := unmAll_iff.1 hr
    constructor
    · intro h
      simp only at h
      refine ⟨c, hc, ?_⟩
      rcases hp : parseFullStruct ce c with p | _ | x
      · rw [hp] at h; cases h
      · rw [hp] at h; cases h
      · rw [hp] at h
        exact ⟨x, rfl, (Option.some.inj (Except.ok.inj h)).symm⟩
    · rintro ⟨c', hc', x, hx, rfl⟩
      have e := (reads_unique hc hc').1
      subst e
      simp only
      rw [hx]

theorem splitFull_iff {ce : CertEnv} : ∀ (fuel : Nat) (b : Bytes) (ys : List CertFull), b.length ≤ fuel →
    ((∃ cs, splitFull ce fuel b = .ok (some cs) ∧ parseFullStructs ce cs = .ok (some ys)) ↔
      ∃ parts : List Bytes, b = parts.flatten ∧ ListRel (fun c y => parseForGo ce c = .ok (some y)) parts ys) := by
  intro fuel
  induction fuel with
  | zero =>
    intro b ys hb
    cases List.length_eq_zero_iff.1 (by omega : b.length = 0)
    constructor
    · rintro ⟨cs, h1, h2⟩
      cases h1
      cases h2
      exact ⟨[], rfl, .nil⟩
    · rintro ⟨parts, h1, h2⟩
      cases h2 with
      | nil => exact ⟨[], rfl, rfl⟩
      | cons h t =>
        obtain ⟨c, hc, _⟩ := parseForGo_some.1 h
        exact absurd (List.append_eq_nil_iff.1 h1.symm).1 (reads_cert_shrinks hc).1
  | succ fuel ih =>
    intro b ys hb
    rw [splitFull]
    by_cases h0 : b = []
    · subst h0
      rw [if_pos rfl]
      constructor
      · rintro ⟨cs, h1, h2⟩
        cases h1
        cases h2
        exact ⟨[], rfl, .nil⟩
      · rintro ⟨parts, h1, h2⟩
        cases h2 with
        | nil => exact ⟨[], rfl, rfl⟩
        | cons h t =>
          obtain ⟨c, hc, _⟩ := parseForGo_some.1 h
          exact absurd (List.append_eq_nil_iff.1 h1.symm).1 (reads_cert_shrinks hc).1
    · rw [if_neg h0]
      constructor
      · rintro ⟨cs, h1, h2⟩
        obtain ⟨r, hr⟩ := unmFirst_total ce.toAsnEnv certificateTy b
        rw [hr] at h1
        rcases r with _ | ⟨v, rest⟩
        · cases h1
        · simp only at h1
          have hv := unmFirst_iff.1 hr
          have hlt := (reads_cert_shrinks hv).2
          rcases hs : splitFull ce fuel rest with p | _ | cs'
          · rw [hs] at h1; cases h1
          · rw [hs] at h1; cases h1
          · rw [hs] at h1
            have h1 := Option.some.inj (Except.ok.inj h1)
            subst h1
            rw [parseFullStructs] at h2
            rcases hp : parseFullStruct ce v with p | _ | x
            · rw [hp] at h2; cases h2
            · rw [hp] at h2; cases h2
            · rw [hp] at h2
              simp only at h2
              rcases hq : parseFullStructs ce cs' with p | _ | xs
              · rw [hq] at h2; cases h2
              · rw [hq] at h2; cases h2
              · rw [hq] at h2
                have h2 := Option.some.inj (Except.ok.inj h2)
                subst h2
                obtain ⟨parts, e, hl⟩ := (ih rest xs (by omega)).1 ⟨cs', hs, hq⟩
                obtain ⟨front, _, he, hall⟩ := reads_local hv
                have h1 := hall []
                rw [List.append_nil] at h1
                exact ⟨front :: parts, by rw [he, e, List.flatten_cons], .cons (parseForGo_some.2 ⟨v, h1, x, hp, rfl⟩) hl⟩
      · rintro ⟨parts, h1, h2⟩
        cases h2 with
        | nil => exact absurd h1 h0
        | @cons c y parts ys h t =>
          obtain ⟨v, hv, x, hx, rfl⟩ := parseForGo_some.1 h
          obtain ⟨front, hne, he, hall⟩ := reads_local hv
          rw [List.append_nil] at he
          subst he
          rw [List.flatten_cons] at h1
          subst h1
          have hlp := List.length_pos_iff.2 hne
          rw [List.length_append] at hb
          obtain ⟨cs, e1, e2⟩ := (ih parts.flatten ys (by omega)).2 ⟨parts, rfl, t⟩
          refine ⟨v :: cs, ?_, ?_⟩
          · rw [unmFirst_iff.2 (hall parts.flatten)]
            simp only
            rw [e1]
          · rw [parseFullStructs, hx]
            simp only
            rw [e2]

/-- C80: a list of certificates (as in a PKCS#7 message) gives exactly the certificates it is the concatenation of. -/
theorem C80_certificates_iff {ce : CertEnv} {b : Bytes} {ys : List CertFull} : parseFullsForGo ce b = .ok (some ys) ↔
    ∃ parts : List Bytes, b = parts.flatten ∧ ListRel (fun c y => parseForGo ce c = .ok (some y)) parts ys := by
  rw [← splitFull_iff b.length b ys (Nat.le_refl _)]
  unfold parseFullsForGo
  rcases splitFull ce b.length b with p | _ | cs
  · simp
  · simp
  · simp

namespace Toy
/-- A certificate with every kind of extension, one of them unknown. -/
def fullExts : List Bytes :=
  [ext [85, 29, 15] true (el 3 [7, 0x84, 0x80]),
   ext [85, 29, 19] true (el 48 (el 1 [255] ++ el 2 [0])),
   ext [85, 29, 17] false (el 48 (el 0x82 (b!"a.b") ++ el 0x81 (b!"m") ++ el 0x87 [1, 2, 3, 4] ++ el 0x86 (b!"u") ++ el 0x82 (b!"c")))]
/-- And some more. -/
def fullExts2 : List Bytes :=
  [ext [85, 29, 30] true (el 48 (el 0xA0 (el 48 (el 0x82 (b!"p"))) ++ el 0xA1 (el 48 (el 0x82 (b!"e"))))),
   ext [85, 29, 31] false (el 48 (el 48 (el 0xA0 (el 0xA0 (el 0x86 (b!"l")))))),
   ext [85, 29, 35] false (el 48 (el 0x80 [1]))]
/-- And the rest. -/
def fullExts3 : List Bytes :=
  [ext [85, 29, 37] false (el 48 (el 6 [43, 6, 1, 5, 5, 7, 3, 3] ++ el 6 [42, 3])),
   ext [85, 29, 14] false (el 4 [9]),
   ext [85, 29, 32] false (el 48 (el 48 (el 6 [42, 5]))),
   ext [85, 29, 99] true [1]]
/-- Authority information. -/
def aia : Bytes := ext [43, 6, 1, 5, 5, 7, 1, 1] false
  (el 48 (el 48 (el 6 [43, 6, 1, 5, 5, 7, 48, 1] ++ el 0x86 (b!"o")) ++ el 48 (el 6 [43, 6, 1, 5, 5, 7, 48, 2] ++ el 0x86 (b!"i"))))

/-- The algorithm of the toy certificates. -/
def ecAlg : Bytes := el 48 (el 6 [42, 134, 72, 206, 61, 4, 3, 2])

/-- An accepted certificate with the given fields. -/
def checkFull (b : Bytes) (ver : Int) (sg : Bytes) (ka : PKAlgo) (ids : List (List Nat)) (f : ExtFields) : Bool :=
  match parseFull ceEc b with
  | .ok (some x) => decide (x.version = ver) && decide (x.signature = sg) && decide (x.keyAlgo = ka) && decide (x.extensions.map Prod.fst = ids) && decide (x.ext = f)
  | _ => false

theorem of_checkFull {b : Bytes} {ver : Int} {sg : Bytes} {ka : PKAlgo} {ids : List (List Nat)} {f : ExtFields} (h : checkFull b ver sg ka ids f = true) :
    ∃ x, FullCertificateIs ceEc b x ∧ x.version = ver ∧ x.signature = sg ∧ x.keyAlgo = ka ∧ x.extensions.map Prod.fst = ids ∧ x.ext = f := by
  unfold checkFull at h
  obtain ⟨r, hr⟩ := parseFull_total ceEc b
  rw [hr] at h
  rcases r with _ | x
  · cases h
  · simp only [Bool.and_eq_true, decide_eq_true_eq, and_assoc] at h
    exact ⟨x, parseFull_iff.1 hr, h⟩
end Toy

set_option maxRecDepth 8000 in
/-- C80: key usage (bits 0, 5 and 8), constraints and names. -/
theorem C80_names_example : ∃ x, FullCertificateIs Toy.ceEc (Toy.certX Toy.ecAlg Toy.ecSpki Toy.fullExts) x ∧ x.version = 3 ∧ x.signature = [1, 2, 3] ∧
    x.keyAlgo = .ecdsa ∧ x.extensions.map Prod.fst = [[2,5,29,15], [2,5,29,19], [2,5,29,17]] ∧
    x.ext = { keyUsage := 289, basicConstraintsValid := true, isCA := true, maxPathLen := 0, maxPathLenZero := true, dnsNames := [b!"a.b", b!"c"],
              emails := [b!"m"], ips := [[1, 2, 3, 4]] } := Toy.of_checkFull (by decide +kernel)

set_option maxRecDepth 8000 in
/-- C80: name constraints, revocation lists, authority key. -/
theorem C80_constraints_example : ∃ x, FullCertificateIs Toy.ceEc (Toy.certX Toy.ecAlg Toy.ecSpki Toy.fullExts2) x ∧ x.version = 3 ∧ x.signature = [1, 2, 3] ∧
    x.keyAlgo = .ecdsa ∧ x.extensions.map Prod.fst = [[2,5,29,30], [2,5,29,31], [2,5,29,35]] ∧
    x.ext = { permittedCritical := true, permitted := [b!"p"], excluded := [b!"e"], crlPoints := [b!"l"], authorityKeyId := [1] } :=
  Toy.of_checkFull (by decide +kernel)

set_option maxRecDepth 8000 in
/-- C80: purposes, subject key, policies, an unknown critical extension. -/
theorem C80_purposes_example : ∃ x, FullCertificateIs Toy.ceEc (Toy.certX Toy.ecAlg Toy.ecSpki Toy.fullExts3) x ∧ x.version = 3 ∧ x.signature = [1, 2, 3] ∧
    x.keyAlgo = .ecdsa ∧ x.extensions.map Prod.fst = [[2,5,29,37], [2,5,29,14], [2,5,29,32], [2,5,29,99]] ∧
    x.ext = { extKeyUsage := [3], unknownExtKeyUsage := [[1,2,3]], subjectKeyId := [9], policies := [[1,2,5]], unhandled := [[2,5,29,99]] } :=
  Toy.of_checkFull (by decide +kernel)

set_option maxRecDepth 8000 in
/-- C80: authority information twice: what they name is collected. -/
theorem C80_access_example : ∃ x, FullCertificateIs Toy.ceEc (Toy.certX Toy.ecAlg Toy.ecSpki [Toy.aia, Toy.aia]) x ∧ x.version = 3 ∧ x.signature = [1, 2, 3] ∧
    x.keyAlgo = .ecdsa ∧ x.extensions.map Prod.fst = [[1,3,6,1,5,5,7,1,1], [1,3,6,1,5,5,7,1,1]] ∧
    x.ext = { ocspServer := [b!"o", b!"o"], issuingUrl := [b!"i", b!"i"] } := Toy.of_checkFull (by decide +kernel)

set_option maxRecDepth 8000 in
/-- C80 (defect): the certificate that is returned for one with the purpose code signing has no purposes, known or unknown. -/
theorem C80_purposes_lost : ∃ b y, parseForGo Toy.ceEc b = .ok (some y) ∧ (∃ x, FullCertificateIs Toy.ceEc b x ∧ x.ext.extKeyUsage = [3]) ∧
    y.ext.extKeyUsage = [] ∧ y.ext.unknownExtKeyUsage = [] := by
  have h : ∃ x, FullCertificateIs Toy.ceEc (Toy.certX Toy.ecAlg Toy.ecSpki [Toy.ext [85, 29, 37] true (Toy.el 48 (Toy.el 6 [43, 6, 1, 5, 5, 7, 3, 3]))]) x ∧
      x.version = 3 ∧ x.signature = [1, 2, 3] ∧ x.keyAlgo = .ecdsa ∧ x.extensions.map Prod.fst = [[2,5,29,37]] ∧ x.ext = { extKeyUsage := [3] } :=
    Toy.of_checkFull (by decide +kernel)
  obtain ⟨x, hx, _, _, _, _, he⟩ := h
  refine ⟨_, x.forGo, ?_, ⟨x, hx, by rw [he]⟩, rfl, ?_⟩
  · unfold parseForGo
    rw [parseFull_iff.2 hx]
  · show x.ext.unknownExtKeyUsage = []
    rw [he]

set_option maxRecDepth 8000 in
/-- C80 (defect): a name of the certificate may be an element of any class: the bytes of an INTEGER are taken for a DNS name. -/
theorem C80_class_ignored : ∃ x, FullCertificateIs Toy.ceEc
    (Toy.certX Toy.ecAlg Toy.ecSpki [Toy.ext [85, 29, 17] true (Toy.el 48 (Toy.el 2 [42]))]) x ∧ x.version = 3 ∧ x.signature = [1, 2, 3] ∧
    x.keyAlgo = .ecdsa ∧ x.extensions.map Prod.fst = [[2,5,29,17]] ∧ x.ext = { dnsNames := [[42]] } := Toy.of_checkFull (by decide +kernel)

set_option maxRecDepth 8000 in
/-- C80 (defect): an extension may be given twice; the last one counts, although the first one was critical. -/
theorem C80_last_wins : ∃ x, FullCertificateIs Toy.ceEc
    (Toy.certX Toy.ecAlg Toy.ecSpki [Toy.ext [85, 29, 19] true (Toy.el 48 []), Toy.ext [85, 29, 19] false (Toy.el 48 (Toy.el 1 [255]))]) x ∧
    x.version = 3 ∧ x.signature = [1, 2, 3] ∧ x.keyAlgo = .ecdsa ∧ x.extensions.map Prod.fst = [[2,5,29,19], [2,5,29,19]] ∧
    x.ext = { basicConstraintsValid := true, isCA := true, maxPathLen := -1 } := Toy.of_checkFull (by decide +kernel)

/-- Two certificates one after the other. -/
example : ∃ b y, parseFullsForGo Toy.ceEc (b ++ b) = .ok (some [y, y]) ∧ y.ext.extKeyUsage = [] := by
  obtain ⟨b, y, h, _, h2, _⟩ := C80_purposes_lost
  exact ⟨b, y, C80_certificates_iff.2 ⟨[b, b], by simp, .cons h (.cons h .nil)⟩, h2⟩

end Apk
