import Verif.Spec.P7Sign
import Verif.Proofs.P7Verify
import Verif.Proofs.MarshalDer
/-! # Encodings of whole messages are read as they are -/
namespace Apk
namespace P7S
open P7M

theorem seq_of_enc {α β : Type} {P : α → Bytes → Prop} {Q : β → Bytes → Bytes → Prop} {f : α → β}
    (h : ∀ a b, P a b → b ≠ [] ∧ ∀ rest, Q (f a) (b ++ rest) rest) {as : List α} {b : Bytes} (hl : ListEnc P as b) : SeqOf Q (as.map f) b := by
  induction hl with
  | nil => exact .nil
  | @cons a as b bs h1 _ ih =>
    obtain ⟨hb, hv⟩ := h _ _ h1
    exact .cons (by simp [hb]) (hv bs) ih

theorem readsV_alg {env : AsnEnv} {a : AlgId} {b : Bytes} (h : AlgEncV a b) : b ≠ [] ∧ ∀ rest, Reads env algIdTy {} a.go (b ++ rest) rest := by
  obtain ⟨o, ho, h⟩ := h
  have fin : ∀ p : Bytes, Elem 0 16 true (o ++ p) b → Reads env .rawValue (parseFP (b!"optional")) a.params p [] →
      b ≠ [] ∧ ∀ rest, Reads env algIdTy {} a.go (b ++ rest) rest := by
    intro p he hr
    refine ⟨he.ne, fun rest => ?_⟩
    refine reads_struct (raw := false) (fs := .cons [] .oid (.cons (b!"optional") .rawValue .nil)) (he.located rfl (present_plain (t := algIdTy) plain0 rfl) rest)
      (v := (a.oid, a.params, ())) ?_
    refine readsAll_cons.2 ⟨p, ?_, readsAll_cons.2 ⟨[], hr, readsAll_nil⟩⟩
    rw [fp_empty]; exact reads_oid plain0 ho p
  rcases h with ⟨hp, he⟩ | ⟨hp, he⟩
  · refine fin [] (by rwa [List.append_nil]) ?_
    rw [hp, fp_optional]
    exact reads_absent (t := .rawValue) (by simp) (.empty rfl) rfl
  · refine fin _ he ?_
    rw [fp_optional]
    have := reads_raw (env := env) (fp := { optional := true }) rfl rfl hp []
    rwa [List.append_nil] at this

theorem readsV_attr {env : AsnEnv} {a : P7AttrV} {b : Bytes} (h : AttrEncV a b) : b ≠ [] ∧ ∀ rest, Reads env attributeTy {} a.go (b ++ rest) rest := by
  obtain ⟨o, ho, hv, he⟩ := h
  refine ⟨he.ne, fun rest => ?_⟩
  refine reads_struct (raw := false) (fs := .cons [] .oid (.cons (b!"set") .rawValue .nil)) (he.located rfl (present_plain (t := attributeTy) plain0 rfl) rest)
    (v := (a.type, a.value, ())) ?_
  refine readsAll_cons.2 ⟨a.value.full, ?_, readsAll_cons.2 ⟨[], ?_, readsAll_nil⟩⟩
  · rw [fp_empty]; exact reads_oid plain0 ho _
  · rw [fp_set]
    have := reads_raw (env := env) (fp := { set := true }) rfl rfl hv []
    rwa [List.append_nil] at this

theorem readsV_attrs {env : AsnEnv} {k : Nat} {as : List P7AttrV} {a rest : Bytes} (h : AttrsEncV k as a)
    (hr : rest = [] ∨ ∃ cls tag c content b r, Elem cls tag c content b ∧ rest = b ++ r ∧ (cls ≠ 2 ∨ tag ≠ k)) :
    Reads env (.slice false attributeTy) { optional := true, tag := some (k : Int) } (as.map P7AttrV.go) (a ++ rest) rest := by
  rcases h with ⟨rfl, rfl⟩ | ⟨c, hc, he⟩
  · refine reads_absent (t := .slice false attributeTy) (by simp) ?_ rfl
    rcases hr with rfl | ⟨cls, tag, c, content, b, r, he, rfl, hne⟩
    · exact .empty rfl
    · refine he.absent rfl rfl (not_present_tag rfl rfl rfl ?_) r
      rcases hne with h | h
      · exact .inl h
      · exact .inr (by show ((tag : Nat) : Int) ≠ (k : Int); omega)
  · have h2 := seq_of_enc (Q := Reads env attributeTy {}) (fun _ _ h => readsV_attr h) hc
    exact reads_slice (by simp [attributeTy]) (he.located rfl (present_tag (t := .slice false attributeTy) rfl rfl rfl) rest) h2

theorem AlgEncV.elem {a : AlgId} {b : Bytes} (h : AlgEncV a b) : ∃ c, Elem 0 16 true c b := by
  obtain ⟨o, _, ⟨_, h⟩ | ⟨_, h⟩⟩ := h <;> exact ⟨_, h⟩

theorem readsV_info {env : AsnEnv} {s : P7Info} {b : Bytes} (h : InfoEnc s b) : b ≠ [] ∧ ∀ rest, Reads env signerInfoTy {} s.go (b ++ rest) rest := by
  obtain ⟨v, serial, ser, ias, d, a, e, sig, u, hn, hv, hiss, hser, hserE, hias, hd, ha, he, hsig, hu, hE⟩ := h
  obtain ⟨_, rd⟩ := readsV_alg (env := env) hd
  obtain ⟨_, re⟩ := readsV_alg (env := env) he
  obtain ⟨ce, hce⟩ := AlgEncV.elem he
  have ra := readsV_attrs (env := env) (k := 0) (rest := e ++ (sig ++ u)) ha (.inr ⟨_, _, _, _, e, sig ++ u, hce, rfl, .inl (by decide)⟩)
  have ru := readsV_attrs (env := env) (k := 1) (rest := []) hu (.inl rfl)
  have rias : ∀ rest, Reads env iasTy {} (([], s.issuer, some serial, ()) : Bytes × RawVal × Option Int × Unit) (ias ++ rest) rest := by
    intro rest
    refine reads_struct (raw := false) (fs := .cons [] .rawValue (.cons [] .bigInt .nil)) (hias.located rfl (present_plain (t := iasTy) plain0 rfl) rest)
      (v := (s.issuer, some serial, ())) ?_
    refine readsAll_cons.2 ⟨ser, ?_, readsAll_cons.2 ⟨[], ?_, readsAll_nil⟩⟩
    · rw [fp_empty]; exact reads_raw rfl rfl hiss _
    · rw [fp_empty]
      have := reads_big (env := env) plain0 hserE []
      rwa [List.append_nil] at this
  refine ⟨hE.ne, fun rest => ?_⟩
  refine reads_struct (raw := false) (fs := .cons (b!"default:1") .int (.cons [] iasTy (.cons [] algIdTy (.cons (b!"optional,tag:0") (.slice false attributeTy)
    (.cons [] algIdTy (.cons [] .octets (.cons (b!"optional,tag:1") (.slice false attributeTy) .nil)))))))
    (hE.located rfl (present_plain (t := signerInfoTy) plain0 rfl) rest)
    (v := ((s.version, ([], s.issuer, s.serial, ()), s.digestAlg.go, s.attrs.map P7AttrV.go, s.encAlg.go, s.encDigest, s.unauth.map P7AttrV.go, ()) :
      Int × (Bytes × RawVal × Option Int × Unit) × algIdTy.interp × List attributeTy.interp × algIdTy.interp × Bytes × List attributeTy.interp × Unit)) ?_
  refine readsAll_cons.2 ⟨ias ++ (d ++ (a ++ (e ++ (sig ++ u)))), ?_, readsAll_cons.2 ⟨d ++ (a ++ (e ++ (sig ++ u))), ?_,
    readsAll_cons.2 ⟨a ++ (e ++ (sig ++ u)), ?_, readsAll_cons.2 ⟨e ++ (sig ++ u), ?_, readsAll_cons.2 ⟨sig ++ u, ?_,
    readsAll_cons.2 ⟨u, ?_, readsAll_cons.2 ⟨[], ?_, readsAll_nil⟩⟩⟩⟩⟩⟩⟩
  · rw [fp_default1]; exact reads_int ⟨rfl, rfl, rfl⟩ hn hv _
  · rw [fp_empty, hser]; exact rias _
  · rw [fp_empty]; exact rd _
  · rw [fp_opt0]; exact ra
  · rw [fp_empty]; exact re _
  · rw [fp_empty]; exact reads_octets plain0 hsig u
  · rw [fp_opt1]
    rw [List.append_nil] at ru
    exact ru

theorem attrs_go (as : List P7AttrV) : (as.map P7AttrV.go).map P7AttrV.of = as := by
  refine (List.map_map).trans ?_
  exact (List.map_congr_left (g := id) (fun a _ => rfl)).trans (List.map_id _)

theorem info_go (s : P7Info) : P7Info.of s.go = s := by
  show P7Info.mk s.version s.issuer s.serial s.digestAlg ((s.attrs.map P7AttrV.go).map P7AttrV.of) s.encAlg s.encDigest ((s.unauth.map P7AttrV.go).map P7AttrV.of) = s
  rw [attrs_go, attrs_go]

theorem infos_go (l : List P7Info) : (l.map P7Info.go).map P7Info.of = l := by
  refine (List.map_map).trans ?_
  exact (List.map_congr_left (g := id) (fun a _ => info_go a)).trans (List.map_id _)

/-- The certificates field; what follows has another tag. -/
theorem readsV_certs {env : AsnEnv} {certs : List Bytes} {c rest : Bytes} (h : CertsEnc certs c)
    (hr : ∃ cls tag con content b r, Elem cls tag con content b ∧ rest = b ++ r ∧ (cls ≠ 2 ∨ tag ≠ 0)) :
    Reads env rawCertsTy { optional := true, tag := some 0 } ((c, ()) : Bytes × Unit) (c ++ rest) rest := by
  rcases h with ⟨_, rfl⟩ | he
  · obtain ⟨cls, tag, con, content, b, r, he, rfl, hne⟩ := hr
    refine reads_absent (t := rawCertsTy) (by simp [rawCertsTy]) (he.absent rfl rfl (not_present_tag rfl rfl rfl ?_) r) rfl
    rcases hne with h | h
    · exact .inl h
    · exact .inr (by show ((tag : Nat) : Int) ≠ 0; omega)
  · exact reads_struct (raw := true) (fs := .nil) (he.located rfl (present_tag (t := rawCertsTy) (k := 0) rfl rfl rfl) rest) (v := ()) readsAll_nil

theorem message_of_enc {ce : CertEnv} {ct : List Nat} {x : Option Bytes} {certs : List Bytes} {infos : List P7Info} {d : Bytes} {parsed : List Cert}
    (h : MessageEnc ct x certs infos d) (hp : CertificatesAre ce parsed certs.flatten) :
    SignedMessageIs ce d { content := x.getD [], certs := parsed, infos := infos, contentType := ct } := by
  obtain ⟨n, v, algs, algSet, algsB, ci, cs, crls, sis, sisB, sd, o, w, hn, hv, halgs, halgE, ⟨ct', hct, hc⟩, hcs, hcrl, hsis, hsE, hsd, ho, hw, hd⟩ := h
  -- the outer content info
  obtain ⟨r, _, hr, rci⟩ := reads_content (env := ce.toAsnEnv) ho (.inr ⟨sd, hsd.ne, hw⟩) hd
  have rci := rci []
  rw [List.append_nil] at rci
  -- the inner one
  have inner : ∃ r' : RawVal, ContentsAre r'.bytes (x.getD []) ∧
      ∀ rest, Reads ce.toAsnEnv contentInfoTy {} (([], ct, r', ()) : Bytes × List Nat × RawVal × Unit) (ci ++ rest) rest := by
    rcases hc with ⟨rfl, hci⟩ | ⟨y, oct, c, rfl, hoct, hcc, hci⟩
    · obtain ⟨r', h1, _, h3⟩ := reads_content (env := ce.toAsnEnv) (c := []) hct (.inl rfl) (by rwa [List.append_nil])
      exact ⟨r', .inl ⟨h1 rfl, rfl⟩, h3⟩
    · obtain ⟨r', _, h2, h3⟩ := reads_content (env := ce.toAsnEnv) hct (.inr ⟨oct, hoct.ne, hcc⟩) hci
      refine ⟨r', .inr ⟨0, 4, false, y, oct, [], hoct, by rw [h2 _ hcc, List.append_nil], .inl ⟨rfl, rfl⟩⟩, h3⟩
  obtain ⟨r', hcont, rin⟩ := inner
  have ralgs := seq_of_enc (Q := Reads ce.toAsnEnv algIdTy {}) (fun _ _ h => readsV_alg h) halgs
  have rinfos := seq_of_enc (Q := Reads ce.toAsnEnv signerInfoTy {}) (fun _ _ h => readsV_info h) hsis
  have rcs : Reads ce.toAsnEnv rawCertsTy { optional := true, tag := some 0 } ((cs, ()) : Bytes × Unit) (cs ++ (crls ++ sisB)) (crls ++ sisB) := by
    refine readsV_certs hcs ?_
    rcases hcrl with rfl | hE
    · exact ⟨0, 17, true, sis, sisB, [], hsE, by simp, .inl (by decide)⟩
    · exact ⟨2, 1, true, [], crls, sisB, hE, rfl, .inr (by decide)⟩
  have rcrl : Reads ce.toAsnEnv (.slice false certListTy) { optional := true, tag := some 1 } ([] : List certListTy.interp) (crls ++ sisB) sisB := by
    rcases hcrl with rfl | hE
    · refine reads_absent (t := .slice false certListTy) (by simp) ?_ rfl
      have := hsE.absent (t := .slice false certListTy) (fp := { optional := true, tag := some 1 }) rfl rfl (not_present_tag rfl rfl rfl (.inl (by show (0:Nat) ≠ 2; decide))) []
      rwa [List.append_nil] at this
    · exact reads_slice (by simp [certListTy]) (hE.located rfl (present_tag (t := .slice false certListTy) (k := 1) rfl rfl rfl) sisB) .nil
  refine ⟨rfl, [], [], [], cs, [], r, r', n, algs.map AlgId.go, [], infos.map P7Info.go, rci, ?_, ?_, hcont, ?_⟩
  · rw [hr sd hw]
    have hl := hsd.located (t := signedDataTy) (fp := {}) rfl (present_plain (t := signedDataTy) plain0 rfl) []
    have := reads_struct (env := ce.toAsnEnv) (raw := false) (fs := .cons (b!"default:1") .int (.cons (b!"set") (.slice false algIdTy) (.cons [] contentInfoTy
      (.cons (b!"optional,tag:0") rawCertsTy (.cons (b!"optional,tag:1") (.slice false certListTy)
      (.cons (b!"set") (.slice false signerInfoTy) .nil)))))) hl
      (v := ((n, algs.map AlgId.go, ([], ct, r', ()), (cs, ()), [], infos.map P7Info.go, ()) : Int × List algIdTy.interp × (Bytes × List Nat × RawVal × Unit) × (Bytes × Unit) ×
        List certListTy.interp × List signerInfoTy.interp × Unit)) ?_
    · rw [List.append_nil] at this
      exact this
    refine readsAll_cons.2 ⟨algsB ++ (ci ++ (cs ++ (crls ++ sisB))), ?_, readsAll_cons.2 ⟨ci ++ (cs ++ (crls ++ sisB)), ?_, readsAll_cons.2 ⟨cs ++ (crls ++ sisB), ?_,
      readsAll_cons.2 ⟨crls ++ sisB, ?_, readsAll_cons.2 ⟨sisB, ?_, readsAll_cons.2 ⟨[], ?_, readsAll_nil⟩⟩⟩⟩⟩⟩
    · rw [fp_default1]; exact reads_int ⟨rfl, rfl, rfl⟩ hn hv _
    · rw [fp_set]
      exact reads_slice (by simp [algIdTy]) (halgE.located rfl (present_set (t := .slice false algIdTy) rfl rfl rfl rfl) _) ralgs
    · rw [fp_empty]; exact rin _
    · rw [fp_opt0]; exact rcs
    · rw [fp_opt1]; exact rcrl
    · rw [fp_set]
      have := hsE.located (t := .slice false signerInfoTy) (fp := { set := true }) rfl (present_set rfl rfl rfl rfl) []
      rw [List.append_nil] at this
      exact reads_slice (by simp [signerInfoTy]) this rinfos
  · rcases hcs with ⟨rfl, rfl⟩ | hE
    · left
      refine ⟨rfl, ?_⟩
      have h1 := parseCerts509_iff.2 hp
      have h2 := parseCerts509_iff.2 (CertificatesAre.nil (env := ce))
      exact Option.some.inj (Except.ok.inj (h1.symm.trans h2))
    · exact .inr ⟨_, hE, hp⟩
  · exact infosAre_iff.2 (infos_go infos).symm

end P7S
end Apk
