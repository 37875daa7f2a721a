import Verif.ToyDer
import Verif.Props.Keys
import Verif.Props.Pkcs7
import Verif.Props.V1
/-! # C55 - C61: concrete certificates, signature blocks and archives -/
namespace Apk

theorem elem_of_parse {cls tag : Nat} {con : Bool} {c b : Bytes} (h : parseTagAndLength b = .ok (⟨cls, tag, c.length, con⟩, c)) : Elem cls tag con c b := by
  obtain ⟨hdr, h1, h2⟩ := (header_iff _ _ _).1 h
  exact ⟨hdr, h1, h2⟩

theorem oidElem_of_parse {oid : List Nat} {c b : Bytes} (h : parseOid c = .ok (.ok oid)) (hb : parseTagAndLength b = .ok (⟨0, 6, c.length, false⟩, c)) : OidElem oid b :=
  ⟨c, (oid_iff c oid).1 h, elem_of_parse hb⟩

theorem intElem_of_parse {i : Int} {c b : Bytes} (h : parseBigInt c = .ok i) (hb : parseTagAndLength b = .ok (⟨0, 2, c.length, false⟩, c)) : IntElem i b :=
  ⟨c, ((parseBigInt_iff c i).1 h).1, ((parseBigInt_iff c i).1 h).2, elem_of_parse hb⟩

namespace Toy

/-- The certificate of the examples. Its modulus is encoded as a negative number. -/
def xCert : Bytes := dCert (b!"x") [0xC3, 0x51]
/-- The attributes of its signature. -/
def xAttrs (md : Bytes) : List P7Attr :=
  [⟨[1,2,840,113549,1,9,3], oidP7 1, el 49 (oidP7 1)⟩, ⟨[1,2,840,113549,1,9,4], el 4 md, el 49 (el 4 md)⟩]
/-- The signer of the message of the examples. -/
def xSigner (md sig : Bytes) : P7Signer :=
  { issuer := dName (b!"x"), serial := 77, digestAlg := [1,3,14,3,2,26], encAlg := [1,2,840,113549,1,1,1], attrs := xAttrs md, encDigest := sig }

end Toy

set_option maxRecDepth 4000 in
/-- C55: the specification of messages is met by a message with a certificate, signed attributes and a signature. -/
theorem C55_message_example : Pkcs7Enc [1,2,840,113549,1,7,1] [Toy.xCert] [Toy.xSigner [1, 2, 3] [9, 9]] (Toy.dMsg (b!"x") Toy.xCert (Toy.dAttrs [1, 2, 3]) [9, 9]) := by
  have alg : ∀ {oid : List Nat} {c : Bytes}, parseOid c = .ok (.ok oid) → parseTagAndLength (Toy.el 6 c) = .ok (⟨0, 6, c.length, false⟩, c) →
      parseTagAndLength (Toy.el 48 (Toy.el 6 c ++ Toy.null)) = .ok (⟨0, 16, (Toy.el 6 c ++ Toy.null).length, true⟩, Toy.el 6 c ++ Toy.null) →
      AlgEnc oid (Toy.el 48 (Toy.el 6 c ++ Toy.null)) :=
    fun h1 h2 h3 => ⟨_, _, oidElem_of_parse h1 h2, .inr ⟨0, 5, false, [], elem_of_parse rfl⟩, elem_of_parse h3⟩
  have ver : VersionEnc (Toy.el 2 [1]) := ⟨1, by constructor <;> decide, intElem_of_parse (c := [1]) rfl rfl⟩
  have attr : ∀ {a : P7Attr} {c : Bytes}, parseOid c = .ok (.ok a.type) → parseTagAndLength (Toy.el 6 c) = .ok (⟨0, 6, c.length, false⟩, c) →
      parseTagAndLength a.full = .ok (⟨0, 17, a.value.length, true⟩, a.value) →
      parseTagAndLength (Toy.el 48 (Toy.el 6 c ++ a.full)) = .ok (⟨0, 16, (Toy.el 6 c ++ a.full).length, true⟩, Toy.el 6 c ++ a.full) →
      AttrEnc a (Toy.el 48 (Toy.el 6 c ++ a.full)) :=
    fun h1 h2 h3 h4 => ⟨_, oidElem_of_parse h1 h2, elem_of_parse h3, elem_of_parse h4⟩
  have sig : SignerEnc (Toy.xSigner [1, 2, 3] [9, 9]) (Toy.dSigner (b!"x") (Toy.dAttrs [1, 2, 3]) [9, 9]) := by
    refine ⟨_, Toy.el 48 (Toy.dName (b!"x") ++ Toy.el 2 [77]), _, _, _, _, [], [], ver, ⟨?_, _, intElem_of_parse (i := 77) (c := [77]) (b := Toy.el 2 [77]) rfl rfl, ?_⟩, alg (c := [43, 14, 3, 2, 26]) rfl rfl rfl,
      .inr ⟨Toy.dAttrs [1, 2, 3], ?_, elem_of_parse (b := Toy.el 0xA0 (Toy.dAttrs [1, 2, 3])) rfl⟩,
      alg (c := [42, 134, 72, 134, 247, 13, 1, 1, 1]) rfl rfl rfl, elem_of_parse (b := Toy.el 4 [9, 9]) rfl, .inl ⟨rfl, rfl⟩, ?_⟩
    · exact ⟨0, 16, true, _, elem_of_parse (c := (Toy.dName (b!"x")).drop 2) rfl⟩
    · exact elem_of_parse rfl
    · exact .cons (attr (a := ⟨[1,2,840,113549,1,9,3], Toy.oidP7 1, Toy.el 49 (Toy.oidP7 1)⟩) (c := [42, 134, 72, 134, 247, 13, 1, 9, 3]) rfl rfl rfl rfl)
        (.cons (bs := []) (attr (a := ⟨[1,2,840,113549,1,9,4], Toy.el 4 [1, 2, 3], Toy.el 49 (Toy.el 4 [1, 2, 3])⟩)
          (c := [42, 134, 72, 134, 247, 13, 1, 9, 4]) rfl rfl rfl rfl) .nil)
    · exact elem_of_parse rfl
  refine ⟨Toy.oidP7 2, _, _, oidElem_of_parse (c := [42, 134, 72, 134, 247, 13, 1, 7, 2]) rfl rfl,
    ⟨_, [[1,3,14,3,2,26]], _, _, _, _, _, _, ver, .cons (bs := []) (alg (c := [43, 14, 3, 2, 26]) rfl rfl rfl) .nil,
      elem_of_parse (b := Toy.el 49 (Toy.el 48 (Toy.oidSha1 ++ Toy.null))) rfl,
      ⟨Toy.oidP7 1, [], oidElem_of_parse (c := [42, 134, 72, 134, 247, 13, 1, 7, 1]) rfl rfl, .inl rfl, elem_of_parse (b := Toy.el 48 (Toy.oidP7 1)) rfl⟩,
      .inr (elem_of_parse (b := Toy.el 0xA0 Toy.xCert) rfl), .cons (bs := []) sig .nil,
      elem_of_parse (b := Toy.el 49 (Toy.dSigner (b!"x") (Toy.dAttrs [1, 2, 3]) [9, 9])) rfl,
      elem_of_parse (b := Toy.dSigned (b!"x") Toy.xCert (Toy.dAttrs [1, 2, 3]) [9, 9]) rfl⟩,
    elem_of_parse (b := Toy.el 0xA0 (Toy.dSigned (b!"x") Toy.xCert (Toy.dAttrs [1, 2, 3]) [9, 9])) rfl, elem_of_parse rfl⟩

/-- C59: the certificate of the examples is parsed, with a repaired modulus; its recorded key info is the re-encoded one and gives
    its key. The hypotheses of `C59_key_info_gives_certificate_key` hold. -/
theorem C59_certificate_example :
    ∃ cert, Toy.derEnv.parseCertAndr Toy.xCert = some cert ∧ cert.raw = Toy.xCert ∧ cert.key.kind = .rsa ∧ 0 < cert.key.qBits ∧ cert.spki.length < 2 ^ 31 ∧
      cert.spki = Toy.dSpki [0, 0xC3, 0x51] ∧ cert.serial = 77 ∧ cert.subject.commonName = b!"x" ∧ Toy.derEnv.parsePKIX cert.spki = some cert.key := by
  have h : (Toy.derEnv.parseCertAndr Toy.xCert).isSome = true := by decide +kernel
  cases hc : Toy.derEnv.parseCertAndr Toy.xCert with
  | none => rw [hc] at h; cases h
  | some cert =>
    have f : ∀ {α : Type} (g : Cert → α) (x : α), (Toy.derEnv.parseCertAndr Toy.xCert).map g = some x → g cert = x := by
      intro α g x hx
      rw [hc] at hx
      exact Option.some.inj hx
    have hs : cert.spki = Toy.dSpki [0, 0xC3, 0x51] := f Cert.spki _ (by decide +kernel)
    have hk : cert.key.kind = .rsa := f (fun c => c.key.kind) _ (by decide +kernel)
    have hq : cert.key.qBits = 16 := f (fun c => c.key.qBits) _ (by decide +kernel)
    have hl : cert.spki.length < 2 ^ 31 := by rw [hs]; decide +kernel
    refine ⟨cert, rfl, C59_certificate_is_its_input hc, hk, by omega, hl, hs, f Cert.serial _ (by decide +kernel),
      f (fun c => c.subject.commonName) _ (by decide +kernel), ?_⟩
    show (concreteEnv1 Toy.ce (Toy.env1 [])).parsePKIX cert.spki = _
    rw [C59_key_info_gives_certificate_key hc (fun _ => by omega) hl, hk]
    rfl

namespace Toy

/-- The signature block over the signature file of the example archive. -/
def xBlock : Bytes :=
  let sf := sfOf [] exFiles
  let attrs := dAttrs (leBytes 20 (poly sf))
  dMsg (b!"x") xCert attrs (signAny (intsId [0xC351, 65537]) (el 49 attrs))

/-- An archive signed with it. -/
def xZip (block : Bytes) : Zip1 :=
  zip1 (exFiles.map (fun p => file p.1 p.2) ++
    [file (b!"META-INF/MANIFEST.MF") (mfOf exFiles), file (b!"META-INF/A.SF") (sfOf [] exFiles), file (b!"META-INF/A.RSA") block]) (by
      simp only [List.map_append, List.map_cons, List.map_nil, file]
      decide +kernel)

end Toy

/-- C56: an archive whose signature block is a real message is accepted. -/
theorem C56_archive_example :
    (∃ c, verifySchemeV1 Toy.derEnv Toy.ord (Toy.xZip Toy.xBlock) false 24 30 = .ok (c, none) ∧ c.map (fun ch => ch.map Cert.raw) = [[Toy.xCert]]) ∧
    (∃ p7 chain, Toy.derEnv.parseP7 Toy.xBlock = some p7 ∧ verifySignature1 Toy.derEnv p7 (Toy.sfOf [] Toy.exFiles) 24 30 = .ok (chain, none)) := by
  refine ⟨Toy.of_summary1 (by decide +kernel), ?_⟩
  have h : (match Toy.derEnv.parseP7 Toy.xBlock with
    | none => false
    | some p7 => match verifySignature1 Toy.derEnv p7 (Toy.sfOf [] Toy.exFiles) 24 30 with
      | .ok (_, none) => true
      | _ => false) = true := by decide +kernel
  revert h
  cases Toy.derEnv.parseP7 Toy.xBlock with
  | none => intro h; cases h
  | some p7 =>
    simp only
    split
    · rename_i c he
      intro _
      exact ⟨p7, c, rfl, he⟩
    · intro h; cases h

/-- C57: two integers with and without an extra element. -/
example : Toy.derEnv.asn1AndrRS (Toy.el 48 (Toy.el 2 [5] ++ Toy.el 2 [0, 200])) = some (5, 200, []) ∧
    Toy.derEnv.asn1AndrRS (Toy.el 48 (Toy.el 2 [5] ++ Toy.el 2 [0, 200] ++ Toy.el 4 [1, 2])) = some (5, 200, []) := by decide +kernel

/-- C58: the attributes of the example message are in DER, and what is hashed is the SET of them. -/
theorem C58_attributes_example : ListEnc DerAttr (Toy.xAttrs [1, 2, 3]) (Toy.dAttrs [1, 2, 3]) ∧ DerElem 0 17 true (Toy.dAttrs [1, 2, 3]) (Toy.el 49 (Toy.dAttrs [1, 2, 3])) ∧
    (∃ p7, Toy.derEnv.parseP7 (Toy.dMsg (b!"x") Toy.xCert (Toy.dAttrs [1, 2, 3]) [9, 9]) = some p7 ∧ Toy.xSigner [1, 2, 3] [9, 9] ∈ p7.signers) ∧
    Toy.derEnv.marshalAttrs (Toy.xAttrs [1, 2, 3]) = some (Toy.el 49 (Toy.dAttrs [1, 2, 3])) := by
  have short : ∀ {cls tag : Nat} {con : Bool} {x l : UInt8} {c : Bytes}, cls < 4 → tag < 31 → x.toNat = 64 * cls + (if con then 32 else 0) + tag → c.length < 128 →
      l.toNat = c.length → DerElem cls tag con c (x :: l :: c) :=
    fun h1 h2 h3 h4 h5 => ⟨_, [_], h1, h2, h3, .inl ⟨h4, _, h5, rfl⟩, rfl⟩
  have one : ∀ {n : Nat} {ns : List Nat} {x : UInt8} {r : Bytes}, x.toNat = n → n < 128 → DerArcs ns r → DerArcs (n :: ns) (x :: r) := by
    rintro n ns x r rfl h h'
    exact .cons (p := []) (.last h) (by omega) h'
  have two : ∀ {n : Nat} {ns : List Nat} {x y : UInt8} {r : Bytes}, (x.toNat - 128) * 128 + y.toNat = n → 128 < x.toNat → y.toNat < 128 →
      DerArcs ns r → DerArcs (n :: ns) (x :: y :: r) := by
    rintro n ns x y r rfl h1 h2 h'
    have := Base128.more (x := x) (by omega) (Base128.last h2)
    simp only [List.length_cons, List.length_nil, Nat.zero_add, Nat.pow_one] at this
    exact .cons (p := [y]) this (by omega) h'
  have three : ∀ {n : Nat} {ns : List Nat} {x y z : UInt8} {r : Bytes}, (x.toNat - 128) * 16384 + ((y.toNat - 128) * 128 + z.toNat) = n → 128 < x.toNat → 128 ≤ y.toNat →
      z.toNat < 128 → DerArcs ns r → DerArcs (n :: ns) (x :: y :: z :: r) := by
    rintro n ns x y z r rfl h1 h2 h3 h'
    have := Base128.more (x := x) (by omega) (Base128.more h2 (Base128.last h3))
    simp only [List.length_cons, List.length_nil, Nat.zero_add, Nat.pow_one] at this
    exact .cons (p := [y, z]) this (by omega) h'
  have oid : ∀ {k : Nat} {x : UInt8}, x.toNat = k → k < 128 → DerOid [1,2,840,113549,1,9,k] (Toy.oidP9 x) := fun h1 h2 =>
    ⟨1, 2, _, _, rfl, by omega, fun _ => by omega, one rfl (by decide) (two rfl (by decide) (by decide) (three rfl (by decide) (by decide) (by decide)
      (one rfl (by decide) (one rfl (by decide) (one h1 h2 .nil))))), short (by omega) (by omega) rfl (by simp) rfl⟩
  have a1 : DerAttr ⟨[1,2,840,113549,1,9,3], Toy.oidP7 1, Toy.el 49 (Toy.oidP7 1)⟩ (Toy.el 48 (Toy.oidP9 3 ++ Toy.el 49 (Toy.oidP7 1))) :=
    ⟨_, oid rfl (by omega), short (by omega) (by omega) rfl (by decide) rfl, short (by omega) (by omega) rfl (by decide) rfl⟩
  have a2 : DerAttr ⟨[1,2,840,113549,1,9,4], Toy.el 4 [1,2,3], Toy.el 49 (Toy.el 4 [1,2,3])⟩ (Toy.el 48 (Toy.oidP9 4 ++ Toy.el 49 (Toy.el 4 [1,2,3]))) :=
    ⟨_, oid rfl (by omega), short (by omega) (by omega) rfl (by decide) rfl, short (by omega) (by omega) rfl (by decide) rfl⟩
  refine ⟨.cons a1 (.cons (bs := []) a2 .nil),
    short (by omega) (by omega) rfl (by decide) rfl, ?_, by decide +kernel⟩
  have hc := C55_message_example
  obtain ⟨cert, h, _⟩ := C59_certificate_example
  exact ⟨_, C55_message_read_back (parsed := [cert]) hc (by rw [List.map_cons, List.map_cons]; exact congrArg (fun x => [x]) h), by simp⟩

end Apk
