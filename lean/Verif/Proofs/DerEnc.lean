import Verif.Spec.Pkcs7
import Verif.Model.Pkcs7
import Verif.Props.Der
/-! # Encodings of the values of `Spec/Pkcs7.lean` are in the grammar -/
namespace Apk

theorem Elem.ne {cls tag : Nat} {c : Bool} {content b : Bytes} (h : Elem cls tag c content b) : b ≠ [] := by
  obtain ⟨hdr, hh, rfl⟩ := h
  have := header_ne hh
  simp [this]

theorem Elem.located {cls tag : Nat} {c : Bool} {content b : Bytes} (h : Elem cls tag c content b) {t : Ty} {fp : FP} (he : fp.explicit = false)
    (hp : FieldPresent t fp ⟨cls, tag, content.length, c⟩) (rest : Bytes) : Located t fp (b ++ rest) ⟨cls, tag, content.length, c⟩ content rest := by
  obtain ⟨hdr, hh, rfl⟩ := h
  exact Located.plain he hh hp rfl

/-- A field is absent if the next element has a header it cannot have. -/
theorem Elem.absent {cls tag : Nat} {c : Bool} {content b : Bytes} (h : Elem cls tag c content b) {t : Ty} {fp : FP} (ho : fp.optional = true)
    (he : fp.explicit = false) (hp : ¬ FieldPresent t fp ⟨cls, tag, content.length, c⟩) (rest : Bytes) : Absent t fp (b ++ rest) := by
  obtain ⟨hdr, hh, rfl⟩ := h
  rw [List.append_assoc]
  exact Absent.plain ho he hh hp

/-- Tag string parameters without tagging. -/
structure FP.Plain (fp : FP) : Prop where
  explicit : fp.explicit = false
  tag : fp.tag = none
  set : fp.set = false

theorem present_plain {t : Ty} {fp : FP} (hf : fp.Plain) {tag n : Nat} (ht : t.HasTag tag) : FieldPresent t fp ⟨0, tag, n, t.constructed⟩ := by
  refine ⟨.inr rfl, ?_⟩
  rw [hf.explicit, hf.tag]
  refine .inr ⟨rfl, ?_⟩
  rw [hf.set]
  exact ht

theorem present_set {t : Ty} {fp : FP} (he : fp.explicit = false) (ht : fp.tag = none) (hs : fp.set = true) {n : Nat} (hc : t.constructed = true) :
    FieldPresent t fp ⟨0, 17, n, true⟩ := by
  refine ⟨.inr hc.symm, ?_⟩
  rw [he, ht]
  refine .inr ⟨rfl, ?_⟩
  rw [hs]
  rfl

theorem present_tag {t : Ty} {fp : FP} (he : fp.explicit = false) {k : Nat} (ht : fp.tag = some (k : Int)) (hc : fp.cls = 2) {n : Nat} :
    FieldPresent t fp ⟨2, k, n, t.constructed⟩ := by
  refine ⟨.inr rfl, ?_⟩
  rw [he, ht]
  exact ⟨hc.symm, rfl⟩

theorem not_present_tag {t : Ty} {fp : FP} (he : fp.explicit = false) {k : Int} (ht : fp.tag = some k) (hc : fp.cls = 2) {tl : TagLen}
    (h : tl.cls ≠ 2 ∨ (tl.tag : Int) ≠ k) : ¬ FieldPresent t fp tl := by
  rintro ⟨_, hp⟩
  rw [he, ht] at hp
  obtain ⟨h1, h2⟩ := hp
  rw [hc] at h1
  rcases h with h | h
  · exact h h1
  · exact h h2

theorem reads_oid {env : AsnEnv} {fp : FP} (hf : fp.Plain) {oid : List Nat} {b : Bytes} (h : OidElem oid b) (rest : Bytes) :
    Reads env .oid fp oid (b ++ rest) rest := by
  obtain ⟨c, hc, he⟩ := h
  exact (reads_prim (by simp) (by simp) (by simp)).2 (.inl ⟨_, _, he.located hf.explicit (present_plain (t := .oid) hf rfl) rest, hc⟩)

theorem reads_big {env : AsnEnv} {fp : FP} (hf : fp.Plain) {i : Int} {b : Bytes} (h : IntElem i b) (rest : Bytes) :
    Reads env .bigInt fp (some i : Option Int) (b ++ rest) rest := by
  obtain ⟨c, h1, h2, he⟩ := h
  exact (reads_prim (t := .bigInt) (by simp) (by simp) (by simp)).2 (.inl ⟨_, _, he.located hf.explicit (present_plain (t := .bigInt) hf rfl) rest, i, rfl, h1, h2⟩)

theorem reads_int {env : AsnEnv} {fp : FP} (hf : fp.Plain) {i : Int} (hi : IsInt64 i) {b : Bytes} (h : IntElem i b) (rest : Bytes) :
    Reads env .int fp i (b ++ rest) rest := by
  obtain ⟨c, h1, h2, he⟩ := h
  exact (reads_prim (t := .int) (by simp) (by simp) (by simp)).2 (.inl ⟨_, _, he.located hf.explicit (present_plain (t := .int) hf rfl) rest, h1, h2, hi⟩)

theorem reads_octets {env : AsnEnv} {fp : FP} (hf : fp.Plain) {c : Bytes} {b : Bytes} (he : Elem 0 4 false c b) (rest : Bytes) :
    Reads env .octets fp c (b ++ rest) rest :=
  (reads_prim (t := .octets) (by simp) (by simp) (by simp)).2 (.inl ⟨_, _, he.located hf.explicit (present_plain (t := .octets) hf rfl) rest, rfl⟩)

theorem reads_raw {env : AsnEnv} {fp : FP} (h1 : fp.explicit = false) (h2 : fp.tag = none) {cls tag : Nat} {c : Bool} {content b : Bytes}
    (h : Elem cls tag c content b) (rest : Bytes) : Reads env .rawValue fp (⟨cls, tag, c, content, b⟩ : RawVal) (b ++ rest) rest := by
  refine (reads_prim (t := .rawValue) (by simp) (by simp) (by simp)).2 (.inl ⟨_, _, h.located h1 ⟨.inl rfl, ?_⟩ rest, ?_⟩)
  · rw [h1, h2]
    exact .inl rfl
  · show _ = _
    rw [take_front]

/-- An optional field that is not there. -/
theorem reads_absent {env : AsnEnv} {t : Ty} (ha : t ≠ .any) {fp : FP} {b : Bytes} (h : Absent t fp b) (hd : fp.dflt = none) : Reads env t fp t.zero b b := by
  have hp : AbsentValue fp t t.zero := by
    cases t <;> simp only [AbsentValue, hd, Option.getD_none] <;> first | rfl | decide
  have prim : PrimReads env t fp t.zero b b := .inr (.inl ⟨h, hp, rfl⟩)
  cases t
  case any => exact absurd rfl ha
  case struct r fs =>
    rw [Reads]
    exact .inr ⟨h, rfl, rfl⟩
  case slice s e =>
    rw [Reads]
    exact .inr ⟨h, rfl, rfl⟩
  all_goals exact (reads_prim (by simp) (by simp) (by simp)).2 prim

theorem readsAll_nil {env : AsnEnv} {b : Bytes} : ReadsAll env .nil () b := by
  have : ∀ v : Fields.nil.interp, ReadsAll env .nil v b := by intro v; rw [ReadsAll]; trivial
  exact this ()

theorem reads_struct {env : AsnEnv} {raw : Bool} {fs : Fields} {fp : FP} {v : fs.interp} {inner b : Bytes} {tl : TagLen} {rest : Bytes}
    (hl : Located (.struct raw fs) fp (b ++ rest) tl inner rest) (hv : ReadsAll env fs v inner) :
    Reads env (.struct raw fs) fp ((if raw then b else [], v) : Bytes × fs.interp) (b ++ rest) rest := by
  have : ∀ w : (Ty.struct raw fs).interp, w.2 = v → w.1 = (if raw then b else []) → Reads env (.struct raw fs) fp w (b ++ rest) rest := by
    intro w h2 h1
    rw [Reads]
    exact .inl ⟨tl, inner, hl, by rw [h2]; exact hv, by rw [take_front]; exact h1⟩
  exact this _ rfl rfl

theorem reads_slice {env : AsnEnv} {s : Bool} {e : Ty} (ha : e ≠ .any) {fp : FP} {v : List e.interp} {inner b : Bytes} {tl : TagLen} {rest : Bytes}
    (hl : Located (.slice s e) fp b tl inner rest) (hv : SeqOf (Reads env e {}) v inner) : Reads env (.slice s e) fp v b rest := by
  have : ∀ w : (Ty.slice s e).interp, w = v → Reads env (.slice s e) fp w b rest := by
    intro w h
    rw [Reads]
    exact .inl ⟨tl, inner, hl, ha, by rw [h]; exact hv⟩
  exact this _ rfl

theorem seq_of_list {α β : Type} {P : α → Bytes → Prop} {Q : β → Bytes → Bytes → Prop} {g : β → α}
    (h : ∀ a b, P a b → b ≠ [] ∧ ∃ v, g v = a ∧ ∀ rest, Q v (b ++ rest) rest) {as : List α} {b : Bytes} (hl : ListEnc P as b) :
    ∃ vs : List β, vs.map g = as ∧ SeqOf Q vs b := by
  induction hl with
  | nil => exact ⟨[], rfl, .nil⟩
  | @cons a as b bs h1 _ ih =>
    obtain ⟨vs, i1, i2⟩ := ih
    obtain ⟨hb, v, hr, hv⟩ := h _ _ h1
    exact ⟨v :: vs, by simp [hr, i1], .cons (by simp [hb]) (hv bs) i2⟩

/-! ## The structures -/

theorem plain0 : FP.Plain {} := ⟨rfl, rfl, rfl⟩
theorem fp_empty : parseFP [] = {} := parseFP_nil
theorem fp_optional : parseFP (b!"optional") = { optional := true } := by decide
theorem fp_default1 : parseFP (b!"default:1") = { dflt := some 1 } := by decide
theorem fp_set : parseFP (b!"set") = { set := true } := by decide
theorem fp_opt0 : parseFP (b!"optional,tag:0") = { optional := true, tag := some 0 } := by decide
theorem fp_opt1 : parseFP (b!"optional,tag:1") = { optional := true, tag := some 1 } := by decide
theorem fp_exp0 : parseFP (b!"explicit,optional,tag:0") = { optional := true, explicit := true, tag := some 0 } := by decide

theorem reads_alg {env : AsnEnv} {oid : List Nat} {b : Bytes} (h : AlgEnc oid b) :
    b ≠ [] ∧ ∃ v, (AlgId.of v).oid = oid ∧ ∀ rest, Reads env algIdTy {} v (b ++ rest) rest := by
  obtain ⟨o, p, ho, hp, he⟩ := h
  have hraw : ∃ r : RawVal, ∀ rest, rest = [] → Reads env .rawValue (parseFP (b!"optional")) r (p ++ rest) rest := by
    rw [fp_optional]
    rcases hp with rfl | ⟨cls, tag, c, content, h⟩
    · refine ⟨Ty.zero .rawValue, fun rest hr => ?_⟩
      subst hr
      exact reads_absent (t := .rawValue) (by simp) (.empty rfl) rfl
    · exact ⟨_, fun rest _ => reads_raw rfl rfl h rest⟩
  obtain ⟨r, hr⟩ := hraw
  refine ⟨he.ne, (([] : Bytes), oid, r, ()), rfl, fun rest => ?_⟩
  refine reads_struct (raw := false) (fs := .cons [] .oid (.cons (b!"optional") .rawValue .nil)) (he.located rfl (present_plain (t := algIdTy) plain0 rfl) rest) (v := (oid, r, ())) ?_
  refine readsAll_cons.2 ⟨p, ?_, readsAll_cons.2 ⟨[], ?_, ?_⟩⟩
  · rw [fp_empty]; exact reads_oid plain0 ho p
  · have := hr [] rfl
    rwa [List.append_nil] at this
  · exact readsAll_nil

theorem reads_attr {env : AsnEnv} {a : P7Attr} {b : Bytes} (h : AttrEnc a b) :
    b ≠ [] ∧ ∃ v, P7Attr.of v = a ∧ ∀ rest, Reads env attributeTy {} v (b ++ rest) rest := by
  obtain ⟨o, ho, hv, he⟩ := h
  refine ⟨he.ne, (([] : Bytes), a.type, (⟨0, 17, true, a.value, a.full⟩ : RawVal), ()), rfl, fun rest => ?_⟩
  refine reads_struct (raw := false) (fs := .cons [] .oid (.cons (b!"set") .rawValue .nil)) (he.located rfl (present_plain (t := attributeTy) plain0 rfl) rest) (v := (a.type, (⟨0, 17, true, a.value, a.full⟩ : RawVal), ())) ?_
  refine readsAll_cons.2 ⟨a.full, ?_, readsAll_cons.2 ⟨[], ?_, ?_⟩⟩
  · rw [fp_empty]; exact reads_oid plain0 ho _
  · rw [fp_set]
    have := reads_raw (env := env) (fp := { set := true }) rfl rfl hv []
    rwa [List.append_nil] at this
  · exact readsAll_nil

theorem Elem.present_any {cls tag : Nat} {c : Bool} {content b : Bytes} (h : Elem cls tag c content b) : AnyElem b := ⟨_, _, _, _, h⟩

/-- An optional implicitly tagged slice of attributes; what follows has another tag. -/
theorem reads_attrs {env : AsnEnv} {k : Nat} {as : List P7Attr} {a rest : Bytes} (h : AttrsEnc k as a)
    (hr : rest = [] ∨ ∃ cls tag c content b r, Elem cls tag c content b ∧ rest = b ++ r ∧ (cls ≠ 2 ∨ tag ≠ k)) :
    ∃ vs : List attributeTy.interp, vs.map P7Attr.of = as ∧
      Reads env (.slice false attributeTy) { optional := true, tag := some (k : Int) } vs (a ++ rest) rest := by
  rcases h with ⟨rfl, rfl⟩ | ⟨c, hc, he⟩
  · refine ⟨[], rfl, ?_⟩
    refine reads_absent (t := .slice false attributeTy) (by simp) ?_ rfl
    rcases hr with rfl | ⟨cls, tag, c, content, b, r, he, rfl, hne⟩
    · exact .empty rfl
    · refine he.absent rfl rfl (not_present_tag rfl rfl rfl ?_) r
      rcases hne with h | h
      · exact .inl h
      · exact .inr (by show ((tag : Nat) : Int) ≠ (k : Int); omega)
  · obtain ⟨vs, h1, h2⟩ := seq_of_list (Q := Reads env attributeTy {}) (fun _ _ h => reads_attr h) hc
    exact ⟨vs, h1, reads_slice (by simp [attributeTy]) (he.located rfl (present_tag (t := .slice false attributeTy) rfl rfl rfl) rest) h2⟩

theorem reads_ias {env : AsnEnv} {issuer : Bytes} {serial : Int} {b : Bytes} (h : IasEnc issuer serial b) :
    ∃ r : RawVal, r.full = issuer ∧ ∀ rest, Reads env iasTy {} (([], r, some serial, ()) : Bytes × RawVal × Option Int × Unit) (b ++ rest) rest := by
  obtain ⟨⟨cls, tag, c, content, hi⟩, ser, hs, he⟩ := h
  refine ⟨⟨cls, tag, c, content, issuer⟩, rfl, fun rest => ?_⟩
  refine reads_struct (raw := false) (fs := .cons [] .rawValue (.cons [] .bigInt .nil)) (he.located rfl (present_plain (t := iasTy) plain0 rfl) rest)
    (v := ((⟨cls, tag, c, content, issuer⟩ : RawVal), some serial, ())) ?_
  refine readsAll_cons.2 ⟨ser, ?_, readsAll_cons.2 ⟨[], ?_, readsAll_nil⟩⟩
  · rw [fp_empty]; exact reads_raw rfl rfl hi _
  · rw [fp_empty]
    have := reads_big (env := env) plain0 hs []
    rwa [List.append_nil] at this

theorem AlgEnc.elem {oid : List Nat} {b : Bytes} (h : AlgEnc oid b) : ∃ c, Elem 0 16 true c b := by
  obtain ⟨o, p, _, _, h⟩ := h
  exact ⟨_, h⟩

theorem reads_signer {env : AsnEnv} {s : P7Signer} {b : Bytes} (h : SignerEnc s b) :
    b ≠ [] ∧ ∃ v, P7Signer.of v = s ∧ ∀ rest, Reads env signerInfoTy {} v (b ++ rest) rest := by
  obtain ⟨v, ias, d, a, e, sig, u, unauth, ⟨n, hn, hv⟩, hias, hd, ha, he, hsig, hu, hE⟩ := h
  obtain ⟨ri, hri, rias⟩ := reads_ias (env := env) hias
  obtain ⟨_, dv, hdv, rd⟩ := reads_alg (env := env) hd
  obtain ⟨_, ev, hev, re⟩ := reads_alg (env := env) he
  obtain ⟨ce, hce⟩ := he.elem
  obtain ⟨av, hav, ra⟩ := reads_attrs (env := env) (k := 0) (rest := e ++ (sig ++ u)) ha (.inr ⟨_, _, _, _, e, sig ++ u, hce, rfl, .inl (by decide)⟩)
  obtain ⟨uv, _, ru⟩ := reads_attrs (env := env) (k := 1) (rest := []) hu (.inl rfl)
  refine ⟨hE.ne, (([], n, ([], ri, some s.serial, ()), dv, av, ev, s.encDigest, uv, ()) :
    Bytes × Int × (Bytes × RawVal × Option Int × Unit) × algIdTy.interp × List attributeTy.interp × algIdTy.interp × Bytes × List attributeTy.interp × Unit), ?_, fun rest => ?_⟩
  · show (⟨ri.full, s.serial, (AlgId.of dv).oid, (AlgId.of ev).oid, av.map P7Attr.of, s.encDigest⟩ : P7Signer) = s
    rw [hri, hdv, hev, hav]
  · refine reads_struct (raw := false) (fs := .cons (b!"default:1") .int (.cons [] iasTy (.cons [] algIdTy (.cons (b!"optional,tag:0") (.slice false attributeTy)
      (.cons [] algIdTy (.cons [] .octets (.cons (b!"optional,tag:1") (.slice false attributeTy) .nil)))))))
      (hE.located rfl (present_plain (t := signerInfoTy) plain0 rfl) rest)
      (v := ((n, ([], ri, some s.serial, ()), dv, av, ev, s.encDigest, uv, ()) :
        Int × (Bytes × RawVal × Option Int × Unit) × algIdTy.interp × List attributeTy.interp × algIdTy.interp × Bytes × List attributeTy.interp × Unit)) ?_
    refine readsAll_cons.2 ⟨ias ++ (d ++ (a ++ (e ++ (sig ++ u)))), ?_, readsAll_cons.2 ⟨d ++ (a ++ (e ++ (sig ++ u))), ?_,
      readsAll_cons.2 ⟨a ++ (e ++ (sig ++ u)), ?_, readsAll_cons.2 ⟨e ++ (sig ++ u), ?_, readsAll_cons.2 ⟨sig ++ u, ?_,
      readsAll_cons.2 ⟨u, ?_, readsAll_cons.2 ⟨[], ?_, readsAll_nil⟩⟩⟩⟩⟩⟩⟩
    · rw [fp_default1]; exact reads_int ⟨rfl, rfl, rfl⟩ hn hv _
    · rw [fp_empty]; exact rias _
    · rw [fp_empty]; exact rd _
    · rw [fp_opt0]; exact ra
    · rw [fp_empty]; exact re _
    · rw [fp_empty]; exact reads_octets plain0 hsig u
    · rw [fp_opt1]
      rw [List.append_nil] at ru
      exact ru

/-- A content info whose content, if any, is an element behind an explicit tag. -/
theorem reads_content {env : AsnEnv} {ct : List Nat} {o c b : Bytes} (ho : OidElem ct o) (hc : c = [] ∨ ∃ x, x ≠ [] ∧ Elem 2 0 true x c)
    (he : Elem 0 16 true (o ++ c) b) :
    ∃ r : RawVal, (c = [] → r.bytes = []) ∧ (∀ x, Elem 2 0 true x c → r.bytes = x) ∧
      ∀ rest, Reads env contentInfoTy {} (([], ct, r, ()) : Bytes × List Nat × RawVal × Unit) (b ++ rest) rest := by
  have hraw : ∃ r : RawVal, (c = [] → r.bytes = []) ∧ (∀ x, Elem 2 0 true x c → r.bytes = x) ∧
      Reads env .rawValue (parseFP (b!"explicit,optional,tag:0")) r c [] := by
    rw [fp_exp0]
    rcases hc with rfl | ⟨x, hx, h⟩
    · refine ⟨Ty.zero .rawValue, fun _ => rfl, fun x h => absurd rfl h.ne, ?_⟩
      exact reads_absent (t := .rawValue) (by simp) (.empty rfl) rfl
    · refine ⟨⟨2, 0, true, x, c⟩, fun h' => absurd h' h.ne, ?_, ?_⟩
      · intro y hy
        obtain ⟨h1, hh1, rfl⟩ := h
        obtain ⟨h2, hh2, e⟩ := hy
        obtain ⟨_, _, e3⟩ := header_unique hh1 hh2 e
        exact e3
      · refine (reads_prim (t := .rawValue) (by simp) (by simp) (by simp)).2 (.inl ⟨⟨2, 0, x.length, true⟩, x, ?_, ?_⟩)
        · obtain ⟨hdr, hh, rfl⟩ := h
          have := Located.explicitRaw (t := .rawValue) (fp := { optional := true, explicit := true, tag := some 0 }) (inner := x) (rest := [])
            rfl rfl hh ⟨rfl, rfl, .inr rfl⟩ rfl (by simp [hx])
          rwa [List.append_nil] at this
        · show _ = _
          simp
          rfl
  obtain ⟨r, h1, h2, hr⟩ := hraw
  refine ⟨r, h1, h2, fun rest => ?_⟩
  refine reads_struct (raw := false) (fs := .cons [] .oid (.cons (b!"explicit,optional,tag:0") .rawValue .nil))
    (he.located rfl (present_plain (t := contentInfoTy) plain0 rfl) rest) (v := (ct, r, ())) ?_
  refine readsAll_cons.2 ⟨c, ?_, readsAll_cons.2 ⟨[], hr, readsAll_nil⟩⟩
  rw [fp_empty]; exact reads_oid plain0 ho c

/-- The certificates field. -/
theorem reads_certs {env : AsnEnv} {certs : List Bytes} {c rest : Bytes} (h : CertsEnc certs c)
    (hr : ∃ content b r, Elem 0 17 true content b ∧ rest = b ++ r) :
    Reads env rawCertsTy { optional := true, tag := some 0 } ((c, ()) : Bytes × Unit) (c ++ rest) rest := by
  rcases h with ⟨_, rfl⟩ | he
  · obtain ⟨content, b, r, he, rfl⟩ := hr
    exact reads_absent (t := rawCertsTy) (by simp [rawCertsTy]) (he.absent rfl rfl (not_present_tag rfl rfl rfl (.inl (by show (0:Nat) ≠ 2; decide))) r) rfl
  · exact reads_struct (raw := true) (fs := .nil) (he.located rfl (present_tag (t := rawCertsTy) (k := 0) rfl rfl rfl) rest) (v := ()) readsAll_nil

theorem reads_signed {env : AsnEnv} {ct : List Nat} {certs : List Bytes} {signers : List P7Signer} {b : Bytes} (h : SignedDataEnc ct certs signers b) :
    ∃ (v : signedDataTy.interp) (content : RawVal) (cs : Bytes), SignedV.of v = ⟨ct, content, cs, signers⟩ ∧ CertsEnc certs cs ∧
      (content.bytes = [] ∨ ∃ x, Elem 0 4 false x content.bytes) ∧ ∀ rest, Reads env signedDataTy {} v (b ++ rest) rest := by
  obtain ⟨v, algs, algSet, algsB, ci, cs, sis, sisB, ⟨n, hn, hv⟩, halgs, halgE, ⟨o, c, ho, hc, hci⟩, hcs, hsis, hsE, hE⟩ := h
  obtain ⟨r, hr1, hr2, rci⟩ := reads_content (env := env) ho (hc.imp id (fun ⟨x, oct, h1, h2⟩ => ⟨oct, h1.ne, h2⟩)) hci
  obtain ⟨avs, _, ras⟩ := seq_of_list (Q := Reads env algIdTy {}) (fun _ _ h => reads_alg h) halgs
  obtain ⟨svs, hsv, rss⟩ := seq_of_list (Q := Reads env signerInfoTy {}) (fun _ _ h => reads_signer h) hsis
  have rcs := reads_certs (env := env) (rest := sisB) hcs ⟨sis, sisB, [], hsE, by simp⟩
  refine ⟨(([], n, avs, ([], ct, r, ()), (cs, ()), [], svs, ()) : Bytes × Int × List algIdTy.interp × (Bytes × List Nat × RawVal × Unit) × (Bytes × Unit) ×
    List certListTy.interp × List signerInfoTy.interp × Unit), r, cs, ?_, hcs, ?_, fun rest => ?_⟩
  · show (⟨ct, r, cs, svs.map P7Signer.of⟩ : SignedV) = _
    rw [hsv]
  · rcases hc with rfl | ⟨x, oct, h1, h2⟩
    · exact .inl (hr1 rfl)
    · exact .inr ⟨x, by rw [hr2 _ h2]; exact h1⟩
  · refine reads_struct (raw := false) (fs := .cons (b!"default:1") .int (.cons (b!"set") (.slice false algIdTy) (.cons [] contentInfoTy
      (.cons (b!"optional,tag:0") rawCertsTy (.cons (b!"optional,tag:1") (.slice false certListTy)
      (.cons (b!"set") (.slice false signerInfoTy) .nil))))))
      (hE.located rfl (present_plain (t := signedDataTy) plain0 rfl) rest)
      (v := ((n, avs, ([], ct, r, ()), (cs, ()), [], svs, ()) : Int × List algIdTy.interp × (Bytes × List Nat × RawVal × Unit) × (Bytes × Unit) ×
        List certListTy.interp × List signerInfoTy.interp × Unit)) ?_
    refine readsAll_cons.2 ⟨algsB ++ (ci ++ (cs ++ sisB)), ?_, readsAll_cons.2 ⟨ci ++ (cs ++ sisB), ?_, readsAll_cons.2 ⟨cs ++ sisB, ?_,
      readsAll_cons.2 ⟨sisB, ?_, readsAll_cons.2 ⟨sisB, ?_, readsAll_cons.2 ⟨[], ?_, readsAll_nil⟩⟩⟩⟩⟩⟩
    · rw [fp_default1]; exact reads_int ⟨rfl, rfl, rfl⟩ hn hv _
    · rw [fp_set]
      exact reads_slice (by simp [algIdTy]) (halgE.located rfl (present_set (t := .slice false algIdTy) rfl rfl rfl rfl) _) ras
    · rw [fp_empty]; exact rci _
    · rw [fp_opt0]; exact rcs
    · rw [fp_opt1]
      refine reads_absent (t := .slice false certListTy) (by simp) ?_ rfl
      have := hsE.absent (t := .slice false certListTy) (fp := { optional := true, tag := some 1 }) rfl rfl (not_present_tag rfl rfl rfl (.inl (by show (0:Nat) ≠ 2; decide))) []
      rwa [List.append_nil] at this
    · rw [fp_set]
      have := hsE.located (t := .slice false signerInfoTy) (fp := { set := true }) rfl (present_set rfl rfl rfl rfl) []
      rw [List.append_nil] at this
      exact reads_slice (by simp [signerInfoTy]) this rss

end Apk
