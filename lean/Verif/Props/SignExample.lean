import Verif.Props.PackageSign
/-! # C73, C74: a signed toy APK that meets the hypotheses -/
namespace Apk.Toy
open Apk.Jar

/-! ## Elements -/

theorem derElem_el {id : UInt8} {cls tag : Nat} {con : Bool} {c : Bytes} (h1 : cls < 4) (h2 : tag < 31) (h3 : id.toNat = 64 * cls + (if con then 32 else 0) + tag)
    (h4 : c.length < 65536) : DerElem cls tag con c (el id c) := by
  unfold el
  split
  · exact ⟨id, _, h1, h2, h3, .inl ⟨‹_›, _, by rw [UInt8.toNat_ofNat']; omega, rfl⟩, rfl⟩
  split
  · refine ⟨id, _, h1, h2, h3, .inr ⟨by omega, 0x81, UInt8.ofNat c.length, [], rfl, ?_, ?_, rfl⟩, rfl⟩
    · rw [UInt8.toNat_ofNat']; omega
    · simp only [beNat, UInt8.toNat_ofNat', List.length_nil]; omega
  · refine ⟨id, _, h1, h2, h3, .inr ⟨by omega, 0x82, UInt8.ofNat (c.length / 256), [UInt8.ofNat (c.length % 256)], rfl, ?_, ?_, rfl⟩, rfl⟩
    · rw [UInt8.toNat_ofNat']; omega
    · simp only [beNat, UInt8.toNat_ofNat', List.length_nil, List.length_cons]; omega

theorem elem_el {id : UInt8} {cls tag : Nat} {con : Bool} {c : Bytes} (h1 : cls < 4) (h2 : tag < 31) (h3 : id.toNat = 64 * cls + (if con then 32 else 0) + tag)
    (h4 : c.length < 65536) : Elem cls tag con c (el id c) := by
  rw [← derElem_tlv (derElem_el h1 h2 h3 h4) (by omega)]
  exact tlv_elem h1 (by omega) (by omega)

theorem el_length (id : UInt8) (c : Bytes) : (el id c).length ≤ c.length + 4 := by
  unfold el
  split
  · simp
  split <;> simp

theorem seq_el {c : Bytes} (h : c.length < 65536) : Elem 0 16 true c (el 48 c) := elem_el (by omega) (by omega) rfl h
theorem set_el {c : Bytes} (h : c.length < 65536) : Elem 0 17 true c (el 49 c) := elem_el (by omega) (by omega) rfl h
theorem ctx_el {c : Bytes} (h : c.length < 65536) : Elem 2 0 true c (el 0xA0 c) := elem_el (by omega) (by omega) rfl h
theorem oct_el {c : Bytes} (h : c.length < 65536) : Elem 0 4 false c (el 4 c) := elem_el (by omega) (by omega) rfl h

/-! ## A message -/

/-- A signer info. -/
def sInfo (cn dig attrs sig : Bytes) : Bytes :=
  el 48 (el 2 [1] ++ (el 48 (dName cn ++ el 2 [77]) ++ (el 48 (el 6 dig ++ null) ++ (attrs ++ (el 48 (oidRsa ++ null) ++ (el 4 sig ++ []))))))
/-- The signed data. -/
def sData (cn cert dig attrs sig : Bytes) : Bytes :=
  el 48 (el 2 [1] ++ (el 49 (el 48 (el 6 dig ++ null) ++ []) ++ (el 48 (oidP7 1 ++ []) ++ (el 0xA0 cert ++ el 49 (sInfo cn dig attrs sig ++ [])))))
/-- The message. -/
def sMsg (cn cert dig attrs sig : Bytes) : Bytes := el 48 (oidP7 2 ++ el 0xA0 (sData cn cert dig attrs sig))
/-- The signer info as a value. -/
def sSigner (cn : Bytes) (dig : List Nat) (as : List P7Attr) (sig : Bytes) : P7Signer :=
  { issuer := dName cn, serial := 77, digestAlg := dig, encAlg := [1,2,840,113549,1,1,1], attrs := as, encDigest := sig }

theorem dName_any {cn : Bytes} (h : cn.length < 1000) : AnyElem (dName cn) ∧ (dName cn).length < 1100 := by
  have h1 := el_length 19 cn
  have h2 := el_length 48 (el 6 [85, 4, 3] ++ el 19 cn)
  have h3 := el_length 49 (el 48 (el 6 [85, 4, 3] ++ el 19 cn))
  have h4 := el_length 48 (el 49 (el 48 (el 6 [85, 4, 3] ++ el 19 cn)))
  have h5 : (el 6 [85, 4, 3]).length = 5 := rfl
  rw [List.length_append] at h2
  refine ⟨⟨0, 16, true, _, seq_el (by omega)⟩, ?_⟩
  show (el 48 _).length < 1100
  omega

theorem alg_enc {oid : List Nat} {c : Bytes} (h : parseOid c = .ok (.ok oid)) (hl : c.length < 100) :
    AlgEnc oid (el 48 (el 6 c ++ null)) ∧ (el 48 (el 6 c ++ null)).length < 200 := by
  have h1 := el_length 6 c
  have h2 := el_length 48 (el 6 c ++ null)
  have h3 : null.length = 2 := rfl
  rw [List.length_append] at h2
  refine ⟨⟨_, null, ⟨c, (oid_iff c oid).1 h, elem_el (by omega) (by omega) rfl (by omega)⟩, .inr ⟨0, 5, false, [], elem_of_parse rfl⟩, seq_el ?_⟩, by omega⟩
  rw [List.length_append]
  omega

theorem signer_abs {issuer ser v d a e sig : Bytes} {serial : Int} {dig enc : List Nat} {as : List P7Attr} (h1 : VersionEnc v) (h2 : AnyElem issuer) (h3 : IntElem serial ser)
    (h4 : AlgEnc dig d) (h5 : AttrsEnc 0 as a) (h6 : AlgEnc enc e) (l : v.length + issuer.length + ser.length + d.length + a.length + e.length + sig.length < 10000) :
    SignerEnc ⟨issuer, serial, dig, enc, as, sig⟩ (el 48 (v ++ (el 48 (issuer ++ ser) ++ (d ++ (a ++ (e ++ (el 4 sig ++ []))))))) ∧
    (el 48 (v ++ (el 48 (issuer ++ ser) ++ (d ++ (a ++ (e ++ (el 4 sig ++ []))))))).length < 10100 := by
  have l1 := el_length 48 (issuer ++ ser)
  have l2 := el_length 4 sig
  have l3 := el_length 48 (v ++ (el 48 (issuer ++ ser) ++ (d ++ (a ++ (e ++ (el 4 sig ++ []))))))
  have l4 : (v ++ (el 48 (issuer ++ ser) ++ (d ++ (a ++ (e ++ (el 4 sig ++ [])))))).length < 10090 := by
    simp only [List.length_append, List.length_nil] at l1 ⊢
    omega
  refine ⟨⟨v, el 48 (issuer ++ ser), d, a, e, el 4 sig, [], [], h1, ⟨h2, ser, h3, seq_el ?_⟩, h4, h5, h6, oct_el (c := sig) (by omega), .inl ⟨rfl, rfl⟩, seq_el (by omega)⟩, by omega⟩
  rw [List.length_append]
  show issuer.length + ser.length < 65536
  omega

theorem data_abs {v d ci cert si o : Bytes} {certs : List Bytes} (hc : certs.flatten = cert) {dig : List Nat} {s : P7Signer} (h1 : VersionEnc v) (h2 : AlgEnc dig d) (h3 : InnerContentEnc [1,2,840,113549,1,7,1] ci) (h4 : SignerEnc s si)
    (h5 : OidElem [1,2,840,113549,1,7,2] o) (l : v.length + d.length + ci.length + cert.length + si.length + o.length < 30000) :
    Pkcs7Enc [1,2,840,113549,1,7,1] certs [s] (el 48 (o ++ el 0xA0 (el 48 (v ++ (el 49 (d ++ []) ++ (ci ++ (el 0xA0 cert ++ el 49 (si ++ [])))))))) := by
  have l1 := el_length 49 (d ++ [])
  have l2 := el_length 0xA0 cert
  have l3 := el_length 49 (si ++ [])
  have e1 : (v ++ (el 49 (d ++ []) ++ (ci ++ (el 0xA0 cert ++ el 49 (si ++ []))))).length < 30090 := by
    simp only [List.length_append, List.length_nil] at l1 l3 ⊢
    omega
  generalize hb : v ++ (el 49 (d ++ []) ++ (ci ++ (el 0xA0 cert ++ el 49 (si ++ [])))) = b at e1
  have l4 := el_length 48 b
  have l5 := el_length 0xA0 (el 48 b)
  refine ⟨o, el 48 b, el 0xA0 (el 48 b), h5, ⟨v, [dig], d ++ [], el 49 (d ++ []), ci, el 0xA0 cert, si ++ [], el 49 (si ++ []), h1, .cons h2 .nil, set_el ?_, h3, .inr ?_, .cons h4 .nil, set_el ?_, ?_⟩, ctx_el (by omega), seq_el ?_⟩
  · rw [List.append_nil]; omega
  · rw [hc]; exact ctx_el (by omega)
  · rw [List.append_nil]; omega
  · rw [hb]; exact seq_el (by omega)
  · rw [List.length_append]; omega

theorem msg_enc {cn cert attrs sig dc : Bytes} {certs : List Bytes} (hc : certs.flatten = cert) {dig : List Nat} {as : List P7Attr} (h1 : cn.length < 1000) (h2 : cert.length < 2000) (h3 : attrs.length < 500)
    (h4 : sig.length < 500) (h5 : parseOid dc = .ok (.ok dig)) (h6 : dc.length < 100) (h7 : AttrsEnc 0 as attrs) :
    Pkcs7Enc [1,2,840,113549,1,7,1] certs [sSigner cn dig as sig] (sMsg cn cert dc attrs sig) := by
  obtain ⟨a1, a2⟩ := alg_enc h5 h6
  obtain ⟨r1, r2⟩ := alg_enc (oid := [1,2,840,113549,1,1,1]) (c := [42, 134, 72, 134, 247, 13, 1, 1, 1]) rfl (by decide)
  obtain ⟨n1, n2⟩ := dName_any h1
  have ver : VersionEnc (el 2 [1]) := ⟨1, by constructor <;> decide, intElem_of_parse (c := [1]) rfl rfl⟩
  have ci : InnerContentEnc [1,2,840,113549,1,7,1] (el 48 (oidP7 1 ++ [])) :=
    ⟨oidP7 1, [], oidElem_of_parse (c := [42, 134, 72, 134, 247, 13, 1, 7, 1]) rfl rfl, .inl rfl, elem_of_parse (b := el 48 (oidP7 1 ++ [])) rfl⟩
  have l1 : (el 2 [1]).length = 3 := rfl
  have l3 : (el 2 [77]).length = 3 := rfl
  have l9 : (el 48 (oidP7 1 ++ [])).length = 13 := rfl
  have l12 : (oidP7 2).length = 11 := rfl
  obtain ⟨i1, i2⟩ := signer_abs (sig := sig) ver n1 (intElem_of_parse (i := 77) (c := [77]) (b := el 2 [77]) rfl rfl) a1 h7 r1 (by omega)
  exact data_abs hc ver a1 ci i1 (oidElem_of_parse (c := [42, 134, 72, 134, 247, 13, 1, 7, 2]) rfl rfl) (by
    have : (sInfo cn dc attrs sig).length < 10100 := i2
    show _ + _ + _ + _ + (sInfo cn dc attrs sig).length + (oidP7 2).length < 30000
    omega)

/-! ## Attributes -/

theorem derOid_p9 {k : Nat} {x : UInt8} (h1 : x.toNat = k) (h2 : k < 128) : DerOid [1,2,840,113549,1,9,k] (oidP9 x) := by
  have one : ∀ {n : Nat} {ns : List Nat} {x : UInt8} {r : Bytes}, x.toNat = n → n < 128 → DerArcs ns r → DerArcs (n :: ns) (x :: r) := by
    rintro n ns x r rfl h h'
    exact .cons (p := []) (.last h) (by omega) h'
  have two : ∀ {n : Nat} {ns : List Nat} {x y : UInt8} {r : Bytes}, (x.toNat - 128) * 128 + y.toNat = n → 128 < x.toNat → y.toNat < 128 →
      DerArcs ns r → DerArcs (n :: ns) (x :: y :: r) := by
    rintro n ns x y r rfl h1 h2 h'
    have := Base128.more (x := x) (by omega) (Base128.last h2)
    simp only [List.length_cons, List.length_nil, Nat.zero_add, Nat.pow_one] at this
    exact .cons (p := [y]) this (by omega) h'
  have three : ∀ {n : Nat} {ns : List Nat} {x y z : UInt8} {r : Bytes}, (x.toNat - 128) * 16384 + ((y.toNat - 128) * 128 + z.toNat) = n → 128 < x.toNat → 128 ≤ y.toNat →
      z.toNat < 128 → DerArcs ns r → DerArcs (n :: ns) (x :: y :: z :: r) := by
    rintro n ns x y z r rfl h1 h2 h3 h'
    have := Base128.more (x := x) (by omega) (Base128.more h2 (Base128.last h3))
    simp only [List.length_cons, List.length_nil, Nat.zero_add, Nat.pow_one] at this
    exact .cons (p := [y, z]) this (by omega) h'
  exact ⟨1, 2, _, _, rfl, by omega, fun _ => by omega, one rfl (by decide) (two rfl (by decide) (by decide) (three rfl (by decide) (by decide) (by decide)
      (one rfl (by decide) (one rfl (by decide) (one h1 h2 .nil))))), derElem_el (by omega) (by omega) rfl (by simp)⟩

theorem attr_abs {a : P7Attr} {o : Bytes} (h : DerOid a.type o) (hf : a.full = el 49 a.value) (ho : o.length < 1000) (hv : a.value.length < 1000) : DerAttr a (el 48 (o ++ a.full)) := by
  have := el_length 49 a.value
  refine ⟨o, h, by rw [hf]; exact derElem_el (by omega) (by omega) rfl (by omega), derElem_el (by omega) (by omega) rfl ?_⟩
  rw [List.length_append, hf]; omega

theorem dAttrs_der {md : Bytes} (h : md.length < 100) : ListEnc DerAttr (xAttrs md) (dAttrs md) := by
  have l := el_length 4 md
  have a1 : DerAttr ⟨[1,2,840,113549,1,9,3], oidP7 1, el 49 (oidP7 1)⟩ (el 48 (oidP9 3 ++ el 49 (oidP7 1))) :=
    attr_abs (a := ⟨[1,2,840,113549,1,9,3], oidP7 1, el 49 (oidP7 1)⟩) (derOid_p9 rfl (by omega)) rfl (by decide) (by decide)
  have a2 : DerAttr ⟨[1,2,840,113549,1,9,4], el 4 md, el 49 (el 4 md)⟩ (el 48 (oidP9 4 ++ el 49 (el 4 md))) :=
    attr_abs (a := ⟨[1,2,840,113549,1,9,4], el 4 md, el 49 (el 4 md)⟩) (derOid_p9 rfl (by omega)) rfl (by decide) (by show (el 4 md).length < 1000; omega)
  have := ListEnc.cons a1 (.cons a2 .nil)
  rw [List.append_nil] at this
  exact this

theorem dAttrs_length {md : Bytes} (h : md.length < 100) : (dAttrs md).length < 300 := by
  have l1 := el_length 4 md
  have l2 := el_length 49 (el 4 md)
  have l3 := el_length 48 (oidP9 4 ++ el 49 (el 4 md))
  have l4 : (oidP9 4).length = 11 := rfl
  have l5 : (el 48 (oidP9 3 ++ el 49 (oidP7 1))).length = 26 := rfl
  rw [List.length_append, l4] at l3
  show (el 48 (oidP9 3 ++ el 49 (oidP7 1)) ++ el 48 (oidP9 4 ++ el 49 (el 4 md))).length < 300
  rw [List.length_append, l5]
  omega

theorem attrEnc_abs {a : P7Attr} {o : Bytes} (h : OidElem a.type o) (hf : a.full = el 49 a.value) (ho : o.length < 1000) (hv : a.value.length < 1000) : AttrEnc a (el 48 (o ++ a.full)) := by
  have := el_length 49 a.value
  refine ⟨o, h, by rw [hf]; exact set_el (by omega), seq_el ?_⟩
  rw [List.length_append, hf]; omega

theorem dAttrs_enc {md : Bytes} (h : md.length < 100) : AttrsEnc 0 (xAttrs md) (el 0xA0 (dAttrs md)) := by
  have l := el_length 4 md
  have a1 : AttrEnc ⟨[1,2,840,113549,1,9,3], oidP7 1, el 49 (oidP7 1)⟩ (el 48 (oidP9 3 ++ el 49 (oidP7 1))) :=
    attrEnc_abs (a := ⟨[1,2,840,113549,1,9,3], oidP7 1, el 49 (oidP7 1)⟩) (oidElem_of_parse (c := [42, 134, 72, 134, 247, 13, 1, 9, 3]) rfl rfl) rfl (by decide) (by decide)
  have a2 : AttrEnc ⟨[1,2,840,113549,1,9,4], el 4 md, el 49 (el 4 md)⟩ (el 48 (oidP9 4 ++ el 49 (el 4 md))) :=
    attrEnc_abs (a := ⟨[1,2,840,113549,1,9,4], el 4 md, el 49 (el 4 md)⟩) (oidElem_of_parse (c := [42, 134, 72, 134, 247, 13, 1, 9, 4]) rfl rfl) rfl (by decide) (by show (el 4 md).length < 1000; omega)
  have h' := ListEnc.cons a1 (.cons a2 .nil)
  rw [List.append_nil] at h'
  have hl := dAttrs_length h
  exact .inr ⟨dAttrs md, h', ctx_el (by omega)⟩

/-! ## Digests as text -/

theorem unhex_hex (b : Bytes) : unhex (hex b) = some b := by
  have dig : ∀ n : Fin 16, unhexDigit (hexDigit n.val) = some n.val := by decide
  induction b with
  | nil => rfl
  | cons c cs ih =>
    have hc := c.toNat_lt
    have h1 := dig ⟨c.toNat / 16, by omega⟩
    have h2 := dig ⟨c.toNat % 16, by omega⟩
    simp only at h1 h2
    have e : hex (c :: cs) = hexDigit (c.toNat / 16) :: hexDigit (c.toNat % 16) :: hex cs := by simp [hex]
    rw [e, unhex, h1, h2, ih]
    simp only [Option.some.injEq, List.cons.injEq, and_true]
    apply UInt8.toNat_inj.1
    rw [UInt8.toNat_ofNat']
    omega

theorem hex_plain (b : Bytes) : ∀ c ∈ hex b, c ≠ 0 ∧ c ≠ 10 ∧ c ≠ 13 := by
  have dig : ∀ n : Fin 16, hexDigit n.val ≠ 0 ∧ hexDigit n.val ≠ 10 ∧ hexDigit n.val ≠ 13 := by decide
  intro c hc
  obtain ⟨x, _, hx⟩ := List.mem_flatMap.1 hc
  have := x.toNat_lt
  rcases List.mem_cons.1 hx with rfl | hx
  · exact dig ⟨x.toNat / 16, by omega⟩
  · rw [List.mem_singleton.1 hx]
    exact dig ⟨x.toNat % 16, by omega⟩

/-- The toy environment in which the certificates of lineages are read as the others. -/
def envS : Env1 := { env1 [] with parseCertStd := (concreteEnv1 ce (env1 [])).parseCertAndr }

/-- Hexadecimal digests. -/
def code : TextCode (concreteEnv1 ce envS) := ⟨hex, unhex_hex, hex_plain⟩

/-! ## Signers and archive -/

/-- Another certificate. -/
def yCert : Bytes := dCert (b!"y") [0x13, 0x57]

theorem x_parses : ((concreteEnv1 ce envS).parseCertAndr xCert).isSome = true := by decide +kernel
theorem y_parses : ((concreteEnv1 ce envS).parseCertAndr yCert).isSome = true := by decide +kernel

/-- The certificates as read. -/
def xParsed : Cert := ((concreteEnv1 ce envS).parseCertAndr xCert).get x_parses
def yParsed : Cert := ((concreteEnv1 ce envS).parseCertAndr yCert).get y_parses

/-- The files that are signed. -/
def sFiles : List (Bytes × Bytes) :=
  [(b!"AndroidManifest.xml", [3, 0, 8, 0]), (b!"classes.dex", b!"dex"),
   (b!"res/drawable-xxxhdpi-v4/a_rather_long_name_of_an_image_that_does_not_fit_into_one_line.png", [137, 80, 78, 71])]
/-- The tool. -/
def sTool : Bytes := b!"1.0 (Toy)"

/-- Signs the signature file directly, SHA-256. Without the signature. -/
def sBase1 (schemes : Option Bytes) : Jar.Signer :=
  { stem := b!"CERT", ext := b!".RSA", alg := .sha256, tool := sTool, mainDigest := true, schemes := schemes, certs := [xCert], parsed := [xParsed], cert := xParsed,
    contentType := [1,2,840,113549,1,7,1], info := sSigner (b!"x") [2,16,840,1,101,3,4,2,1] [] [], block := [] }
/-- Its signature file. -/
def sf1 (schemes : Option Bytes) : Bytes := (Jar.signatureFile code .sha256 sTool sFiles (sBase1 schemes)).bytes
/-- With the signature. -/
def sSigner1 (schemes : Option Bytes) : Jar.Signer :=
  { sBase1 schemes with
    info := sSigner (b!"x") [2,16,840,1,101,3,4,2,1] [] (signAny xParsed.key.id (sf1 schemes))
    block := sMsg (b!"x") xCert [96, 134, 72, 1, 101, 3, 4, 2, 1] [] (signAny xParsed.key.id (sf1 schemes)) }

/-- Signs attributes, SHA-1, and has two certificates. Without the signature. -/
def sBase2 (schemes : Option Bytes) : Jar.Signer :=
  { stem := b!"OTHER", ext := b!".RSA", alg := .sha1, tool := b!"toy", mainDigest := false, schemes := schemes, certs := [yCert, xCert], parsed := [yParsed, xParsed], cert := yParsed,
    contentType := [1,2,840,113549,1,7,1], info := sSigner (b!"y") [1,3,14,3,2,26] [] [], block := [] }
/-- Its signature file. -/
def sf2 (schemes : Option Bytes) : Bytes := (Jar.signatureFile code .sha256 sTool sFiles (sBase2 schemes)).bytes
/-- The digest of its signature file. -/
def md2 (schemes : Option Bytes) : Bytes := (concreteEnv1 ce envS).sha1 (sf2 schemes)
/-- With the signature. -/
def sSigner2 (schemes : Option Bytes) : Jar.Signer :=
  { sBase2 schemes with
    info := sSigner (b!"y") [1,3,14,3,2,26] (xAttrs (md2 schemes)) (signAny yParsed.key.id (el 49 (dAttrs (md2 schemes))))
    block := sMsg (b!"y") (yCert ++ xCert) [43, 14, 3, 2, 26] (el 0xA0 (dAttrs (md2 schemes))) (signAny yParsed.key.id (el 49 (dAttrs (md2 schemes)))) }

theorem sfile_upd {env : Env1} (t : TextCode env) (a : JarAlg) (tool : Bytes) (fs : List (Bytes × Bytes)) (s : Jar.Signer) (i : P7Signer) (b : Bytes) :
    Jar.signatureFile t a tool fs { s with info := i, block := b } = Jar.signatureFile t a tool fs s := rfl
theorem sf1_eq (schemes : Option Bytes) : (Jar.signatureFile code .sha256 sTool sFiles (sSigner1 schemes)).bytes = sf1 schemes := by
  unfold sSigner1 sf1
  rw [sfile_upd]
theorem sf2_eq (schemes : Option Bytes) : (Jar.signatureFile code .sha256 sTool sFiles (sSigner2 schemes)).bytes = sf2 schemes := by
  unfold sSigner2 sf2
  rw [sfile_upd]

theorem signAny_length (k d : Bytes) : (signAny k d).length = k.length + 20 := by
  unfold signAny
  rw [List.length_append, leBytes_length]

theorem sig_valid {c : Cert} (h : c.key.kind = .rsa) (hq : c.key.qBits ≤ 16) {d : Bytes} {al : SigAlg} (ha : al ∉ [SigAlg.md5Rsa, .sha224Rsa, .dsaSha1, .dsaSha224, .dsaSha256, .ecdsaSha224]) :
    JarSigValid (concreteEnv1 ce envS) c d (signAny c.key.id d) al := by
  refine .std ha (.inr ⟨h, [], rfl, (fun _ h => by cases h), ?_⟩) (decide_eq_true rfl)
  rw [signAny_length, List.length_nil]
  omega

/-- In DER, as a check. -/
def isDer (b : Bytes) : Bool := match ber2der b with | .ok (.ok d) => decide (d = b) | _ => false

theorem block_der {b : Bytes} (h : isDer b = true) (hl : b.length < 2 ^ 31) :
    ∃ t, BerEnc t b ∧ DerEnc t b := by
  have e : ber2der b = .ok (.ok b) := by
    revert h
    unfold isDer
    cases ber2der b with
    | error p => intro h; cases h
    | ok r =>
      cases r with
      | error e => intro h; cases h
      | ok d => intro h; rw [of_decide_eq_true h]
  obtain ⟨t, ht⟩ := C41_output_is_der e (by omega)
  exact ⟨t, ht.ber hl, ht⟩

theorem plain_of {v : Bytes} (h : v.all (fun c => decide (c ≠ 0 ∧ c ≠ 10 ∧ c ≠ 13)) = true) : PlainText v := by
  intro c hc
  exact of_decide_eq_true (List.all_eq_true.1 h c hc)

theorem name_of {b : Bytes} {n : PName} (h : (match unmAll ce.toAsnEnv rdnsTy b with | .ok (some v) => decide (n = fillName (rdnsOf v)) | _ => false) = true) :
    NameIs ce.toAsnEnv b n := by
  revert h
  cases hu : unmAll ce.toAsnEnv rdnsTy b with
  | error p => intro h; cases h
  | ok r =>
    cases r with
    | none => intro h; cases h
    | some v => intro h; exact nameIs_iff.2 ⟨v, hu, of_decide_eq_true h⟩

theorem sSigner1_ok {schemes : Option Bytes} (hs : ∀ v, schemes = some v → PlainText v)
    (hd : isDer (sSigner1 schemes).block = true) (hl : (sSigner1 schemes).block.length < 2 ^ 31) :
    (sSigner1 schemes).Ok ce (concreteEnv1 ce envS) (Jar.signatureFile code .sha256 sTool sFiles (sSigner1 schemes)).bytes := by
  rw [sf1_eq]
  obtain ⟨t, h1, h2⟩ := block_der (b := (sSigner1 schemes).block) hd hl
  generalize hsf : sf1 schemes = sf at *
  have hk : xParsed.key.kind = .rsa := by decide +kernel
  have hq : xParsed.key.qBits ≤ 16 := by decide +kernel
  have hi : xParsed.key.id.length < 100 := by decide +kernel
  have hst : (47 : UInt8) ∉ b!"CERT" := by decide
  have hto : ¬ (b!"signtool") <:+: sTool := by decide
  have hse : (77 : Int) = xParsed.serial := by decide +kernel
  have his : NameIs ce.toAsnEnv (dName (b!"x")) xParsed.issuer := name_of (by decide +kernel)
  have hcr : xParsed.critExt = false := by decide +kernel
  have hlen : ([xCert].flatten).length < 2000 := by decide +kernel
  have hce : (concreteEnv1 ce envS).parseCertAndr xCert = some xParsed := by simp [xParsed]
  have hm := msg_enc (cn := b!"x") (certs := [xCert]) (cert := xCert) (attrs := []) (as := []) (dc := [96, 134, 72, 1, 101, 3, 4, 2, 1]) (dig := [2,16,840,1,101,3,4,2,1])
      (sig := signAny xParsed.key.id sf) (List.append_nil _) (by decide)
      (by rw [List.flatten_cons, List.flatten_nil, List.append_nil] at hlen; exact hlen) (by decide)
      (by rw [signAny_length]; omega) rfl (by decide) (.inl ⟨rfl, rfl⟩)
  have hsv := sig_valid (c := xParsed) (d := sf) (al := .sha256Rsa) hk hq (by decide)
  generalize hX : xParsed = X at *
  generalize hY : xCert = Y at *
  exact
    { stem := by simp only [sSigner1, sBase1]; exact hst
      ext := .inl rfl
      tool := ⟨by simp only [sSigner1, sBase1]; exact plain_of (by decide), by simp only [sSigner1, sBase1]; exact hto⟩
      schemes := hs
      certs := by simp only [sSigner1, sBase1, List.map_cons, List.map_nil, hX, hY, hce]
      cert := ⟨[], [], by simp only [sSigner1, sBase1, List.nil_append], (fun _ h => by cases h)⟩
      serial := by simp only [sSigner1, sBase1, sSigner, hX]; exact hse
      issuer := by simp only [sSigner1, sBase1, sSigner, hX]; exact his
      extensions := by simp only [sSigner1, sBase1, hX]; exact hcr
      block := ⟨t, _, h1, h2, Nat.lt_of_lt_of_le hl (by decide), by simp only [sSigner1, sBase1, hX, hY, hsf]; exact hm⟩
      signature := ⟨.sha256Rsa, _, .key (h := .sha256) .sha256Rsa .rsa, .direct rfl, by simp only [sSigner1, sBase1, sSigner, hX, hsf]; exact hsv⟩ }

theorem sSigner2_ok {schemes : Option Bytes} (hs : ∀ v, schemes = some v → PlainText v)
    (hd : isDer (sSigner2 schemes).block = true) (hl : (sSigner2 schemes).block.length < 2 ^ 31) (hmd : (md2 schemes).length < 100) :
    (sSigner2 schemes).Ok ce (concreteEnv1 ce envS) (Jar.signatureFile code .sha256 sTool sFiles (sSigner2 schemes)).bytes := by
  rw [sf2_eq]
  obtain ⟨t, h1, h2⟩ := block_der (b := (sSigner2 schemes).block) hd hl
  have hmdd : md2 schemes = (concreteEnv1 ce envS).sha1 (sf2 schemes) := rfl
  generalize hsf : sf2 schemes = sf at *
  generalize hM : md2 schemes = md at *
  have hk : yParsed.key.kind = .rsa := by decide +kernel
  have hq : yParsed.key.qBits ≤ 16 := by decide +kernel
  have hi : yParsed.key.id.length < 100 := by decide +kernel
  have hst : (47 : UInt8) ∉ b!"OTHER" := by decide
  have hto : ¬ (b!"signtool") <:+: (b!"toy") := by decide
  have hse : (77 : Int) = yParsed.serial := by decide +kernel
  have his : NameIs ce.toAsnEnv (dName (b!"y")) yParsed.issuer := name_of (by decide +kernel)
  have hcr : yParsed.critExt = false := by decide +kernel
  have hlen : (yCert ++ xCert).length < 2000 := by decide +kernel
  have hce : (concreteEnv1 ce envS).parseCertAndr xCert = some xParsed := by simp [xParsed]
  have hcy : (concreteEnv1 ce envS).parseCertAndr yCert = some yParsed := by simp [yParsed]
  have l1 := dAttrs_length hmd
  have l2 := el_length 0xA0 (dAttrs md)
  have l3 := el_length 49 (dAttrs md)
  have hm := msg_enc (cn := b!"y") (certs := [yCert, xCert]) (cert := yCert ++ xCert) (attrs := el 0xA0 (dAttrs md)) (as := xAttrs md) (dc := [43, 14, 3, 2, 26]) (dig := [1,3,14,3,2,26])
      (sig := signAny yParsed.key.id (el 49 (dAttrs md))) (by rw [List.flatten_cons, List.flatten_cons, List.flatten_nil, List.append_nil]) (by decide)
      hlen (by omega) (by rw [signAny_length]; omega) rfl (by decide) (dAttrs_enc hmd)
  have hsv := sig_valid (c := yParsed) (d := el 49 (dAttrs md)) (al := .sha1Rsa) hk hq (by decide)
  have hso : SignedOver (concreteEnv1 ce envS) [1,2,840,113549,1,7,1] (sSigner (b!"y") [1,3,14,3,2,26] (xAttrs md) (signAny yParsed.key.id (el 49 (dAttrs md)))) sf (el 49 (dAttrs md)) := by
    refine .attributes (pre := []) (mid := []) (post := []) (ct := ⟨[1,2,840,113549,1,9,3], oidP7 1, el 49 (oidP7 1)⟩) (md := ⟨[1,2,840,113549,1,9,4], el 4 md, el 49 (el 4 md)⟩)
      rfl (fun _ h => by cases h) rfl (oidElem_of_parse (c := [42, 134, 72, 134, 247, 13, 1, 7, 1]) rfl rfl) rfl .sha1 ?_ (dAttrs_der hmd) (derElem_el (by omega) (by omega) rfl (by omega)) (by omega)
    rw [← hmdd]
    exact oct_el (by omega)
  generalize hX : xParsed = X at *
  generalize hY : xCert = Y at *
  generalize hX' : yParsed = X' at *
  generalize hY' : yCert = Y' at *
  exact
    { stem := by simp only [sSigner2, sBase2]; exact hst
      ext := .inl rfl
      tool := ⟨by simp only [sSigner2, sBase2]; exact plain_of (by decide), by simp only [sSigner2, sBase2]; exact hto⟩
      schemes := hs
      certs := by simp only [sSigner2, sBase2, List.map_cons, List.map_nil, hX, hY, hX', hY', hce, hcy]
      cert := ⟨[], [X], by simp only [sSigner2, sBase2, List.nil_append, hX], (fun _ h => by cases h)⟩
      serial := by simp only [sSigner2, sBase2, sSigner, hX']; exact hse
      issuer := by simp only [sSigner2, sBase2, sSigner, hX']; exact his
      extensions := by simp only [sSigner2, sBase2, hX']; exact hcr
      block := ⟨t, _, h1, h2, Nat.lt_of_lt_of_le hl (by decide), by simp only [sSigner2, sBase2, hX', hY', hX, hY, hM]; exact hm⟩
      signature := ⟨.sha1Rsa, el 49 (dAttrs md), .key (h := .sha1) .sha1Rsa .rsa, by simp only [sSigner2, sBase2, hX', hM]; exact hso,
        by simp only [sSigner2, sBase2, sSigner, hX', hM]; exact hsv⟩ }


/-! ## C73 -/

/-- Two signers that say the APK is also signed with v2. -/
def sSigners : List Jar.Signer := [sSigner1 (some (b!"2")), sSigner2 (some (b!"2"))]

theorem sSigners_ok : ∀ s ∈ sSigners, s.Ok ce (concreteEnv1 ce envS) (Jar.signatureFile code .sha256 sTool sFiles s).bytes := by
  have hs : ∀ v, some (b!"2") = some v → PlainText v := by
    rintro v h
    cases h
    exact plain_of (by decide)
  intro s h
  rcases List.mem_cons.1 h with rfl | h
  · exact sSigner1_ok hs (by decide +kernel) (by decide +kernel)
  · rw [List.mem_singleton.1 h]
    exact sSigner2_ok hs (by decide +kernel) (by decide +kernel) (by decide +kernel)

theorem sFiles_ok : FilesOk sFiles := by
  refine ⟨by decide, ?_, ?_, .inl (by decide)⟩
  · intro f hf
    apply plain_of
    revert f
    decide
  · intro f hf h
    exfalso
    revert f
    decide

theorem hasFiles_zip {l : List (Bytes × Bytes)} (h : ((l.map (fun p => file p.1 p.2)).map ZFile.name).Nodup) : HasFiles (zip1 (l.map (fun p => file p.1 p.2)) h) l :=
  ⟨by show ((l.map (fun p => file p.1 p.2)).map _).Perm _; rw [List.map_map]; exact .refl _, fun _ => rfl⟩

theorem names_zip (l : List (Bytes × Bytes)) : (l.map (fun p => file p.1 p.2)).map ZFile.name = l.map (·.1) := by
  rw [List.map_map]; rfl

theorem sSigners_names (schemes : Option Bytes) : (([sSigner1 schemes, sSigner2 schemes]).map Jar.Signer.stem).Nodup ∧ ∀ s ∈ [sSigner1 schemes, sSigner2 schemes], BlockExt s.ext := by
  refine ⟨by simp [sSigner1, sSigner2, sBase1, sBase2], fun s h => ?_⟩
  rcases List.mem_cons.1 h with rfl | h
  · exact .inl rfl
  · rw [List.mem_singleton.1 h]; exact .inl rfl

theorem sContents_nodup (schemes : Option Bytes) : (((contents code .sha256 sTool sFiles [sSigner1 schemes, sSigner2 schemes]).map (fun p => file p.1 p.2)).map ZFile.name).Nodup := by
  rw [names_zip]
  exact contents_nodup sFiles_ok (sSigners_names schemes).1 (sSigners_names schemes).2

/-- The signed archive. -/
def sZip (schemes : Option Bytes) : Zip1 := zip1 _ (sContents_nodup schemes)

/-- C73: the hypotheses are met by an archive with two signers. -/
theorem C73_example : ∃ c, verifySchemeV1 (concreteEnv1 ce envS) ord (sZip (some (b!"2"))) true 9 30 = .ok (c, none) ∧ c.length = 2 := by
  obtain ⟨c, h1, h2, _⟩ := C73_signed_jar_accepted ce envS code .sha256 sTool sFiles sSigners (sZip (some (b!"2"))) ord true 9 30 rfl (hasFiles_zip _) sFiles_ok (plain_of (by decide))
    (sSigners_names _).1 sSigners_ok (by simp [sSigners]) (by simp [sSigners]) (.inl (by decide)) (fun _ _ => .inl (by decide)) (fun h => by cases h)
  exact ⟨c, h1, h2⟩

/-! ## C74 -/

theorem no_layout {file : Bytes} (h : (match findEocd file with | .ok l => (findApkSigningBlock file l).toOption.isNone | .error _ => true) = true) :
    ∀ head area cd rec, ¬ ApkLayout file head area cd rec := by
  intro head area cd rec hl
  rw [layout_findEocd hl] at h
  simp only [layout_findBlock hl] at h
  cases h

/-- The document of AndroidManifest.xml: from platform 16 on, made for platform 28. -/
def sXml : ZFile → XDoc := fun _ => doc (b!"16") (b!"28") (b!"1")

theorem sZip_manifest (schemes : Option Bytes) : (sZip schemes).zip.file (b!"AndroidManifest.xml") = some (file (b!"AndroidManifest.xml") [3, 0, 8, 0]) := rfl

theorem sManifest (schemes : Option Bytes) : ManifestSays ⟨concreteEnv1 ce envS, sXml⟩ (sZip schemes) ⟨16, 28, 1⟩ :=
  .says (sZip_manifest schemes) rfl (by simp [file])
    ((encodeAll_iff _ _).1 rfl)

/-- A signer of the block. -/
def blockSigner (b : Bytes) (c : Cert) : Sign.Signer := ⟨0x0103, c.spki, [b], sign c.key.id⟩

theorem blockSigner_good {b : Bytes} {c : Cert} (h : (concreteEnv1 ce envS).parseCertAndr b = some c) (hk : c.key.kind = .rsa) (hq : 0 < c.key.qBits) (hl : c.spki.length < 2 ^ 31) :
    (blockSigner b c).Good (concreteEnv1 ce envS).toEnv c [] := by
  refine ⟨by simp [blockSigner], by simp only [blockSigner, List.map_cons, List.map_nil]; rw [h], rfl, c.key, ?_, fun data => .inr (.inr (.inl ⟨.inl rfl, hk, decide_eq_true rfl⟩))⟩
  have := C59_key_info_gives_certificate_key h (fun _ => hq) hl
  rw [if_neg (by rw [hk]; simp)] at this
  exact this

theorem xGood : (blockSigner xCert xParsed).Good (concreteEnv1 ce envS).toEnv xParsed [] :=
  blockSigner_good (by simp [xParsed]) (by decide +kernel) (by decide +kernel) (by decide +kernel)
theorem yGood : (blockSigner yCert yParsed).Good (concreteEnv1 ce envS).toEnv yParsed [] :=
  blockSigner_good (by simp [yParsed]) (by decide +kernel) (by decide +kernel) (by decide +kernel)

/-- A member of the lineage. -/
def blockMember (b : Bytes) (c : Cert) : Sign.Member := ⟨blockSigner b c, b, 7⟩

theorem blockMember_good {b : Bytes} {c : Cert} (h : (concreteEnv1 ce envS).parseCertAndr b = some c) (hk : c.key.kind = .rsa) : (blockMember b c).Good (concreteEnv1 ce envS).toEnv c :=
  ⟨by simp [blockMember, blockSigner], by simp [blockMember], h, fun data => .inr (.inr (.inl ⟨.inl rfl, hk, decide_eq_true rfl⟩))⟩

theorem not_paged {u : Sign.Unsigned} {b : Bytes} {c : Cert} : Paged u (blockSigner b c) := fun h => absurd h (by simp [blockSigner])

/-- The archive is signed for these platforms. -/
theorem sJar {m maxSdk : Int} (h : 18 ≤ maxSdk) : JarSigned ce envS code .sha256 sTool sFiles sSigners (sZip (some (b!"2"))) m maxSdk :=
  ⟨hasFiles_zip _, sFiles_ok, plain_of (by decide), (sSigners_names _).1, sSigners_ok, by simp [sSigners], by simp [sSigners], .inl h, fun _ _ => .inl h⟩

theorem sMin {schemes : Option Bytes} : EffectiveMin ⟨concreteEnv1 ce envS, sXml⟩ (sZip schemes) (-1) 16 :=
  .inr (.inl ⟨rfl, _, sManifest schemes, rfl⟩)

theorem sOld {file : Bytes} {maxSdk : Int} (h : 18 ≤ maxSdk) (hd : ¬ StartsWithDex file) :
    OldPlatformsToo ce envS sXml code .sha256 sTool sFiles sSigners (sZip (some (b!"2"))) file 16 maxSdk :=
  fun _ => ⟨sJar h, ⟨_, sManifest _⟩, hd⟩

theorem no_dex (ps : List (Nat × Bytes)) : ¬ StartsWithDex (toyUnsigned.signed ps) := by
  simp [StartsWithDex, Sign.Unsigned.signed, toyUnsigned, head]

theorem v2_two {b b' : Bytes} {c c' : Cert} (g : (blockSigner b c).Good (concreteEnv1 ce envS).toEnv c []) (g' : (blockSigner b' c').Good (concreteEnv1 ce envS).toEnv c' []) :
    ∀ p ∈ [(blockSigner b c, c, ([] : List Cert)), (blockSigner b' c', c', [])], p.1.Good (concreteEnv1 ce envS).toEnv p.2.1 p.2.2 ∧ Paged toyUnsigned p.1 := by
  intro p hp
  rcases List.mem_cons.1 hp with rfl | hp
  · exact ⟨g, not_paged⟩
  · rw [List.mem_singleton.1 hp]; exact ⟨g', not_paged⟩

theorem members_two {b b' : Bytes} {c c' : Cert} (g : (blockMember b c).Good (concreteEnv1 ce envS).toEnv c) (g' : (blockMember b' c').Good (concreteEnv1 ce envS).toEnv c') :
    ∀ p ∈ [(blockMember b c, c), (blockMember b' c', c')], p.1.Good (concreteEnv1 ce envS).toEnv p.2 := by
  intro p hp
  rcases List.mem_cons.1 hp with rfl | hp
  · exact g
  · rw [List.mem_singleton.1 hp]; exact g'

theorem sSigners_none_ok : ∀ s ∈ [sSigner1 none, sSigner2 none], s.Ok ce (concreteEnv1 ce envS) (Jar.signatureFile code .sha256 sTool sFiles s).bytes := by
  have hs : ∀ v, (none : Option Bytes) = some v → PlainText v := by
    rintro v h
    cases h
  intro s h
  rcases List.mem_cons.1 h with rfl | h
  · exact sSigner1_ok hs (by decide +kernel) (by decide +kernel)
  · rw [List.mem_singleton.1 h]
    exact sSigner2_ok hs (by decide +kernel) (by decide +kernel) (by decide +kernel)

/-- C74: the hypotheses are met by an APK with two v1 signers and no block. -/
theorem C74_v1_example : ∃ res, verifyTop ⟨concreteEnv1 ce envS, sXml⟩ ord (some (sZip none)) plain (-1) 29 = .ok (res, none) ∧ res.schemeId = 1 ∧ res.certs.length = 2 := by
  have hj : JarSigned ce envS code .sha256 sTool sFiles [sSigner1 none, sSigner2 none] (sZip none) 16 29 :=
    ⟨hasFiles_zip _, sFiles_ok, plain_of (by decide), (sSigners_names _).1, sSigners_none_ok, by simp, by simp, .inl (by decide), fun _ _ => .inl (by decide)⟩
  obtain ⟨res, h1, h2, h3⟩ := C74_signed_v1_accepted (file := plain) sXml ord hj rfl (by decide) (no_layout (by decide +kernel)) sMin (by decide)
    (by
      intro _ s hs ids h
      rcases List.mem_cons.1 hs with rfl | hs
      · cases h
      · rw [List.mem_singleton.1 hs] at h; cases h)
    (by
      intro i hi
      cases (sManifest none).unique hi
      rintro (⟨_, h⟩ | ⟨h, _⟩) <;> exact absurd h (by decide))
    (by simp [StartsWithDex, plain, head])
  exact ⟨res, h1, h2, h3.1⟩

theorem v2_abs {b b' : Bytes} {c c' : Cert} (g : (blockSigner b c).Good (concreteEnv1 ce envS).toEnv c []) (g' : (blockSigner b' c').Good (concreteEnv1 ce envS).toEnv c' [])
    (hs : (toyUnsigned.signed (Sign.pairsV2 (concreteEnv1 ce envS).toEnv toyUnsigned [blockSigner b c, blockSigner b' c'])).length < 2147483648) :
    PackageAccepts (concreteEnv1 ce envS) sXml ord (sZip (some (b!"2")))
      (toyUnsigned.signed (Sign.pairsV2 (concreteEnv1 ce envS).toEnv toyUnsigned [blockSigner b c, blockSigner b' c'])) (-1) 30 sSigners 2 [[c], [c']] :=
  C74_signed_v2_accepted sXml ord rfl toyUnsigned toyUnsigned_ok [(blockSigner b c, c, []), (blockSigner b' c', c', [])] (by simp) (by simp) (v2_two g g')
    hs (last_of_nil rfl _) sMin (by decide) (sOld (by decide) (no_dex _))

/-- C74: the hypotheses are met by an APK with two v1 and two v2 signers. -/
theorem C74_v2_example : PackageAccepts (concreteEnv1 ce envS) sXml ord (sZip (some (b!"2")))
    (toyUnsigned.signed (Sign.pairsV2 (concreteEnv1 ce envS).toEnv toyUnsigned [blockSigner xCert xParsed, blockSigner yCert yParsed])) (-1) 30 sSigners 2 [[xParsed], [yParsed]] :=
  v2_abs xGood yGood (by decide +kernel)

/-- C74: and by one with v1, v2 and v3 signatures, for old and for new platforms. -/
theorem C74_v3_example (maxSdk : Int) (h : 18 ≤ maxSdk) (hM : maxSdk ≤ 2147483647) : PackageAccepts (concreteEnv1 ce envS) sXml ord (sZip (some (b!"2")))
    (toyUnsigned.signed (Sign.pairsV2V3 (concreteEnv1 ce envS).toEnv toyUnsigned (blockSigner xCert xParsed))) (-1) maxSdk sSigners (if 28 ≤ maxSdk then 3 else 2) [[xParsed]] :=
  C74_signed_v2_v3_accepted sXml ord rfl toyUnsigned toyUnsigned_ok _ _ _ xGood not_paged (by decide +kernel) (last_of_nil rfl _) sMin (by omega) hM (sOld h (no_dex _))

/-- C74: and by one whose key was changed. -/
theorem C74_rotated_example : PackageAccepts (concreteEnv1 ce envS) sXml ord (sZip (some (b!"2")))
    (toyUnsigned.signed (Sign.pairsRotated (concreteEnv1 ce envS).toEnv toyUnsigned (blockSigner xCert xParsed) (blockSigner yCert yParsed)
      [blockMember xCert xParsed, blockMember yCert yParsed] 34)) (-1) 34 sSigners 31 [[yParsed]] := by
  have hx : xParsed.raw = xCert := by decide +kernel
  have hy : yParsed.raw = yCert := by decide +kernel
  refine C74_signed_rotated_accepted sXml ord rfl toyUnsigned toyUnsigned_ok _ _ _ _ _ _ xGood not_paged yGood [(blockMember xCert xParsed, xParsed), (blockMember yCert yParsed, yParsed)] ?_
    ?_ rfl 34 (by decide) (by decide) (by decide +kernel) (last_of_nil rfl _) sMin (by decide) (.inr ⟨by decide, by decide⟩) (sOld (by decide) (no_dex _))
  · exact members_two (blockMember_good (by simp [xParsed]) (by decide +kernel)) (blockMember_good (by simp [yParsed]) (by decide +kernel))
  · simp only [List.map_cons, List.map_nil, hx, hy]
    decide +kernel

end Apk.Toy
