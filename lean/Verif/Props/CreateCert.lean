import Verif.Proofs.CreateCert
/-!
# C87: certificates written by `CreateCertificate`

What `CreateCertificate` (x509.go:1847-1931) writes is read back as it was asked for.
-/
namespace Apk
open Crc P7S

/-- The steps of `CreateCertificate`. -/
theorem createCert_inv {env : CreateEnv} {t p : CertTemplate} {pub : Key} {s : CertSigner} {der : Bytes} (h : createCert env t p pub (some s) = .ok (.ok der)) :
    ∃ n hash alg keyBytes keyAlg issuer subject exts, t.serial = some n ∧ signingParams s.pub t.sigAlg = .ok (.ok (hash, alg)) ∧
      marshalPublicKey env pub = .ok (keyBytes, keyAlg) ∧ SubjectBytes env p issuer ∧ SubjectBytes env t subject ∧
      buildExtensions env.asn t.ext (authorityKeyOf t p issuer subject) t.extra = .ok (some exts) ∧
      writeCert env t s hash alg issuer subject keyBytes keyAlg exts = .ok (.ok der) := by
  unfold createCert at h
  dsimp only at h
  cases hn : t.serial with
  | none => rw [if_pos hn] at h; cases h
  | some n =>
    rw [if_neg (by simp [hn])] at h
    rcases hs : signingParams s.pub t.sigAlg with e | e | ⟨hash, alg⟩
    · rw [hs] at h; cases h
    · rw [hs] at h; cases h
    · rw [hs] at h
      rcases hk : marshalPublicKey env pub with e | ⟨keyBytes, keyAlg⟩
      · rw [hk] at h; cases h
      · rw [hk] at h
        rcases hi : subjectBytes env p with e | issuer
        · rw [hi] at h; cases h
        · rw [hi] at h
          rcases hj : subjectBytes env t with e | subject
          · rw [hj] at h; cases h
          · rw [hj] at h
            dsimp only at h
            rcases hb : buildExtensions env.asn t.ext (authorityKeyOf t p issuer subject) t.extra with e | e | exts
            · rw [hb] at h; cases h
            · rw [hb] at h; cases h
            · rw [hb] at h
              exact ⟨n, hash, alg, keyBytes, keyAlg, issuer, subject, exts, rfl, rfl, rfl, subject_bytes.1 hi, subject_bytes.1 hj, hb, h⟩

theorem writeCert_inv {env : CreateEnv} {t : CertTemplate} {s : CertSigner} {hash : Nat} {alg keyAlg : AlgId} {issuer subject keyBytes : Bytes} {exts : List Ext} {der : Bytes}
    (h : writeCert env t s hash alg issuer subject keyBytes keyAlg exts = .ok (.ok der)) :
    ∃ tbs f signature, marshal env.mar tbsOutTy (tbsValue t [] alg issuer subject keyBytes keyAlg exts) = .ok tbs ∧ env.hash hash = some f ∧
      s.sign (isRsaPss t.sigAlg) hash (f tbs) = some signature ∧
      marshal env.mar certificateOutTy (([] : Bytes), tbsValue t tbs alg issuer subject keyBytes keyAlg exts, alg.out, wholeBits signature, ()) = .ok der := by
  unfold writeCert at h
  cases h1 : marshal env.mar tbsOutTy (tbsValue t [] alg issuer subject keyBytes keyAlg exts) with
  | error e => rw [h1] at h; cases h
  | ok tbs =>
    rw [h1] at h
    dsimp only at h
    cases h2 : env.hash hash with
    | none => rw [h2] at h; cases h
    | some f =>
      rw [h2] at h
      dsimp only at h
      cases h3 : s.sign (isRsaPss t.sigAlg) hash (f tbs) with
      | none => rw [h3] at h; cases h
      | some signature =>
        rw [h3] at h
        dsimp only at h
        cases h4 : marshal env.mar certificateOutTy (([] : Bytes), tbsValue t tbs alg issuer subject keyBytes keyAlg exts, alg.out, wholeBits signature, ()) with
        | error e => rw [h4] at h; cases h
        | ok b =>
          rw [h4] at h
          cases h
          exact ⟨tbs, f, signature, rfl, rfl, h3, h4⟩

/-- C87: a certificate of less than 1 GB that was made from a template whose contents can be read, with or without extra extensions that
    the parser does not understand, is the certificate that was asked for. `point` is how points of curves are read. -/
theorem C87_certificate_read_back {env : CreateEnv} {point : List Nat → Bytes → Option (Int × Int)} {t p : CertTemplate} {pub : Key} {s : CertSigner} {der : Bytes}
    (h : createCert env t p pub (some s) = .ok (.ok der)) (hl : der.length < 2 ^ 30) (hx : ∀ e ∈ t.extra, ValidOid e.1 ∧ e.1 ∉ understoodExts) (hf : TemplateFits t.ext)
    (hk : KeyReadable env point pub) (hnb : LeafFits env.asn env.mar {} .time t.notBefore) (hna : LeafFits env.asn env.mar {} .time t.notAfter)
    (hi : ∀ b, SubjectBytes env p b → ∃ n, NameIs env.asn b n) (hs : ∀ b, SubjectBytes env t b → ∃ n, NameIs env.asn b n) :
    ∃ issuer subject x, SubjectBytes env p issuer ∧ SubjectBytes env t subject ∧ FullCertificateIs ⟨env.asn, point⟩ der x ∧ x.base.raw = der ∧
      CreatedFrom env t p issuer subject pub s x := by
  obtain ⟨n, hash, alg, keyBytes, keyAlg, issuer, subject, exts, h1, h2, h3, h4, h5, h6, h7⟩ := createCert_inv h
  obtain ⟨tbs, f, signature, g1, g2, g3, g4⟩ := writeCert_inv h7
  obtain ⟨iname, hin⟩ := hi _ h4
  obtain ⟨sname, hsn⟩ := hs _ h5
  obtain ⟨ci, hci⟩ := name_elem hin
  obtain ⟨cs, hcs⟩ := name_elem hsn
  obtain ⟨pa, alg', q1, q2, q3, q4, q5, q6, q7, q8⟩ := signing_chosen (env := env.asn) h2
  obtain ⟨pk, k1, k2, k3⟩ := key_reads (rp := point) hk h3
  have hv := ids_valid h6 (fun e he => (hx e he).1)
  unfold marshal at g1 g4
  rw [mp_empty] at g1 g4
  obtain ⟨c0, _, e0⟩ := struct_fresh (fs := _) _ g1
  obtain ⟨l1, hread⟩ := cert_written (env := env.asn) q1 q2 (v := tbsValue t tbs alg issuer subject keyBytes keyAlg exts) (c := c0) (by rw [← e0]; rfl) g4 hl
  rw [← e0] at l1
  obtain ⟨c, spki, e1, hval, hkl, hw⟩ := tbs_written (env := env.asn) rfl h1 q1 q2 k1 k2 hci hcs hnb hna hv g1 l1
  have hc : c0 = c := by
    have l0 := tlv_length 0 16 true c0
    have l2 := tlv_length 0 16 true c
    rw [← e0] at l0
    rw [← e1] at l2
    have := congrArg stripHeader (e0.symm.trans e1)
    rwa [strip_tlv (by decide) (by decide) (by omega), strip_tlv (by decide) (by decide) (by omega)] at this
  subst hc
  have hR := hread _ hw
  rw [← e0] at hR
  have hk3 := k3 hkl
  have hext := exts_with_unknown h6 hf (fun e he => (hx e he).2) hval
  have hwhich := C86_which h6
  have hkey : authorityKeyOf t p issuer subject = signingKeyId t p issuer subject := by
    unfold authorityKeyOf signingKeyId
    simp only [gt_iff_lt, List.length_pos_iff]
  obtain ⟨w, hw', _⟩ := C86_template_read_back h6 hf hval
  rw [hkey] at hext hwhich
  generalize hF : ({ templateSays t.ext (signingKeyId t p issuer subject) with unhandled := (t.extra.filter (fun e => e.2.1)).map (fun e => e.1) } : ExtFields) = F at hext
  have hflag : extensionLoop env.asn (exts.map Ext.parsed) false = .ok (some (decide (F.unhandled ≠ []))) := by
    rw [loop_flag env.asn _ {} false (by simp), hext]
  have hcrit := extensionsAre_iff.1 hflag
  generalize hcert : certRead der tbs (tbsRead n t.notBefore t.notAfter ⟨alg.oid, pa⟩ ⟨keyAlg.oid, pk⟩ spki ⟨0, 16, true, ci, issuer⟩ ⟨0, 16, true, cs, subject⟩ keyBytes exts)
    ⟨alg.oid, pa⟩ signature = cert at hR
  have hof : CertV.of cert = ⟨der, some n, ⟨alg.oid, pa⟩, issuer, t.notBefore, t.notAfter, subject, spki, ⟨keyAlg.oid, pk⟩, wholeBits keyBytes, exts.map Ext.parsed⟩ := by
    rw [← hcert]; rfl
  refine ⟨issuer, subject, ⟨{ raw := der, spki := spkiOf spki false pub, key := pub.pub, issuer := iname, subject := sname, serial := n, critExt := decide (F.unhandled ≠ []), sigAlg := alg', notBefore := t.notBefore, notAfter := t.notAfter }, pub, pkAlgo keyAlg.oid, tbs, subject, issuer, signature, 3, exts.map (fun e => (e.1, e.2.1, e.2.2)),
    F⟩, h4, h5, ?_, rfl, ?_⟩
  · refine parseFull_iff.1 ?_
    unfold parseFull
    rw [unmAll_iff.2 hR]
    refine fullStruct_iff.2 ⟨F, ?_, ?_, ?_⟩
    · rw [hof]
      exact parseCertStruct_iff.2 ⟨alg', false, sname, iname, _, q3, hk3, hsn, hin, hcrit, rfl⟩
    · rw [hof]
      exact hext
    · rw [hof, ← hcert]
      have e1 : rightAlign (wholeBits signature) = signature := (aligned_iff.1 (aligned_whole signature)).symm
      have e2 : (exts.map Ext.parsed).map (fun e => (e.2.1, e.2.2.1, e.2.2.2.1)) = exts.map (fun e => (e.1, e.2.1, e.2.2)) := by
        rw [List.map_map]; rfl
      show _ = (⟨_, pub, pkAlgo keyAlg.oid, tbs, subject, issuer, rightAlign (wholeBits signature), certVersion 2, (exts.map Ext.parsed).map (fun e => (e.2.1, e.2.2.1, e.2.2.2.1)),
        F⟩ : CertFull)
      rw [e1, e2]
      rfl
  · have hid : exts.map (fun e => (e.1, e.2.1, e.2.2)) = exts := List.map_id _
    refine ⟨rfl, h1, rfl, rfl, rfl, rfl, rfl, hsn, hin, hF.symm, ?_, ?_, ⟨w, hid.trans hw'⟩, q6, q4, q5, hash, f, q7, g2, ?_⟩
    · show decide (F.unhandled ≠ []) = true ↔ _
      rw [← hF, decide_eq_true_iff]
      show (t.extra.filter (fun e => e.2.1)).map (fun e => e.1) ≠ [] ↔ _
      simp only [ne_eq, List.map_eq_nil_iff, List.filter_eq_nil_iff, Classical.not_forall, Classical.not_not, exists_prop]
    · show (exts.map (fun e => (e.1, e.2.1, e.2.2))).map _ = _
      rw [hid]
      exact hwhich
    · rw [← q8]
      exact g3

/-- C87: a signature made with an honest signer is accepted with the signer's key, except for MD5, which is never accepted. -/
theorem C87_signature_verifies {env : CreateEnv} {cenv : ChainEnv} {t p : CertTemplate} {issuer subject : Bytes} {pub : Key} {s : CertSigner} {x : CertFull}
    (h : CreatedFrom env t p issuer subject pub s x) (hh : cenv.hash = env.hash) (hs : HonestSigner cenv s) :
    Spec.ValidSig cenv x.base.sigAlg x.rawTbs x.signature s.pub ↔ x.base.sigAlg ≠ 2 := by
  obtain ⟨hash, f, h1, h2, h3⟩ := h.signature
  have hv := hs _ _ _ _ h3
  have ha := h.algorithm
  generalize x.base.sigAlg = a at *
  constructor
  · rintro hv rfl
    have no' : ∀ {a id : Nat}, Spec.SigHash a id → a ≠ 2 := by
      intro a id hs
      cases hs with
      | sha1 hm => simp only [List.mem_cons, List.not_mem_nil, or_false] at hm; omega
      | sha256 hm => simp only [List.mem_cons, List.not_mem_nil, or_false] at hm; omega
      | sha384 hm => simp only [List.mem_cons, List.not_mem_nil, or_false] at hm; omega
      | sha512 hm => simp only [List.mem_cons, List.not_mem_nil, or_false] at hm; omega
    have no : ∀ id, ¬ Spec.SigHash 2 id := fun id hs => no' hs rfl
    generalize s.pub = k at hv
    cases hv with
    | rsa n e id f h => exact no _ h
    | dsa p q g y r s id f h => exact no _ h
    | ecdsa c x y r s id f h => exact no _ h
  · intro hne
    have hsig : Spec.SigHash a hash := by
      simp only [algHashes, List.mem_cons, Prod.mk.injEq, List.not_mem_nil, or_false] at h1
      rcases h1 with ⟨h, h'⟩ | ⟨h, h'⟩ | ⟨h, h'⟩ | ⟨h, h'⟩ | ⟨h, h'⟩ | ⟨h, h'⟩ | ⟨h, h'⟩ | ⟨h, h'⟩ | ⟨h, h'⟩ | ⟨h, h'⟩ | ⟨h, h'⟩ | ⟨h, h'⟩
      · exact absurd h hne
      · subst h h'; exact .sha1 _ (by decide)
      · subst h h'; exact .sha256 _ (by decide)
      · subst h h'; exact .sha384 _ (by decide)
      · subst h h'; exact .sha512 _ (by decide)
      · subst h h'; exact .sha256 _ (by decide)
      · subst h h'; exact .sha384 _ (by decide)
      · subst h h'; exact .sha512 _ (by decide)
      · subst h h'; exact .sha1 _ (by decide)
      · subst h h'; exact .sha256 _ (by decide)
      · subst h h'; exact .sha384 _ (by decide)
      · subst h h'; exact .sha512 _ (by decide)
    rw [← hh] at h2
    generalize s.pub = k at *
    cases ha with
    | rsa hm =>
      simp only at hv
      refine .rsa _ _ hash f hsig h2 (fun h => ?_) (fun h => ?_)
      · have : a ∈ [13, 14, 15] := by
          simp only [List.mem_cons, List.not_mem_nil, or_false] at hm ⊢
          omega
        rwa [decide_eq_true this, if_pos rfl] at hv
      · have : a ∉ [13, 14, 15] := by
          simp only [List.mem_cons, List.not_mem_nil, or_false]
          omega
        rwa [decide_eq_false this, if_neg (by decide)] at hv
    | ecdsa hm =>
      simp only at hv
      obtain ⟨r, v, e1, e2, e3, e4⟩ := hv
      exact .ecdsa _ _ _ r v hash f hsig h2 e1 e2 e3 e4

/-- C87: so a certificate that can sign certificates and has the signer's key has signed it. -/
theorem C87_signed_by {env : CreateEnv} {cenv : ChainEnv} {t p : CertTemplate} {issuer subject : Bytes} {pub : Key} {s : CertSigner} {x ca : CertFull}
    (h : CreatedFrom env t p issuer subject pub s x) (hh : cenv.hash = env.hash) (hs : HonestSigner cenv s) (hne : x.base.sigAlg ≠ 2)
    (hk : ca.key = s.pub) (h1 : ca.ext.basicConstraintsValid = true) (h2 : ca.ext.isCA = true) (h3 : ca.ext.keyUsage = 0 ∨ ca.ext.keyUsage.testBit 5 = true)
    (h4 : ca.keyAlgo ≠ .unknown) : Spec.SignedBy cenv x ca :=
  ⟨fun _ => ⟨fun _ => h1, fun _ => h2⟩, h3, h4, hk ▸ (C87_signature_verifies h hh hs).2 hne⟩

/-- C87: the names of a certificate that was read may be used, as the names of a template. -/
theorem C87_names_of_certificates {env : CreateEnv} {point : List Nat → Bytes → Option (Int × Int)} {b : Bytes} {x : CertFull} (h : FullCertificateIs ⟨env.asn, point⟩ b x)
    {t : CertTemplate} (ht : t.rawSubject = x.rawSubject ∨ t.rawSubject = x.rawIssuer) : ∀ b, SubjectBytes env t b → ∃ n, NameIs env.asn b n := by
  have h' := parseFull_iff.2 h
  unfold parseFull at h'
  rcases hu : unmAll (CertEnv.toAsnEnv ⟨env.asn, point⟩) certificateTy b with e | _ | c
  · rw [hu] at h'; cases h'
  · rw [hu] at h'; cases h'
  · rw [hu] at h'
    obtain ⟨ext, h1, _, h3⟩ := fullStruct_iff.1 h'
    obtain ⟨sa, re, subj, iss, crit, _, _, h4, h5, _⟩ := parseCertStruct_iff.1 h1
    have e1 : x.rawSubject = (CertV.of c).subject := by rw [h3]; rfl
    have e2 : x.rawIssuer = (CertV.of c).issuer := by rw [h3]; rfl
    have hs : ∃ n, NameIs env.asn t.rawSubject n := by
      rcases ht with ht | ht
      · exact ⟨subj, by rw [ht, e1]; exact h4⟩
      · exact ⟨iss, by rw [ht, e2]; exact h5⟩
    obtain ⟨n, hn⟩ := hs
    rintro b (⟨_, rfl⟩ | ⟨hz, _⟩)
    · exact ⟨n, hn⟩
    · obtain ⟨c, hc⟩ := name_elem hn
      exact absurd hz hc.ne

/-- C87: with which keys which algorithms can be used. -/
theorem C87_signing_iff {pub : Key} {requested : Nat} : (∃ hash alg, signingParams pub requested = .ok (.ok (hash, alg))) ↔ MayAsk pub requested := by
  constructor
  · rintro ⟨hash, alg, h⟩
    obtain ⟨_, n, _, _, _, h1, h2, h3, _⟩ := signing_chosen (env := asnEnv0) h
    refine ⟨?_, ?_⟩
    · cases h3 with
      | rsa => exact ⟨_, .rsa⟩
      | @ecdsa c x y a hm =>
        refine Classical.byContradiction (fun hno => ?_)
        unfold signingParams defaultSigning at h
        dsimp only at h
        by_cases c1 : c = [1,3,132,0,33] ∨ c = [1,2,840,10045,3,1,7]
        · rcases c1 with rfl | rfl
          · exact hno ⟨_, .p224⟩
          · exact hno ⟨_, .p256⟩
        · by_cases c2 : c = [1,3,132,0,34]
          · subst c2; exact hno ⟨_, .p384⟩
          · by_cases c3 : c = [1,3,132,0,35]
            · subst c3; exact hno ⟨_, .p521⟩
            · rw [if_neg c1, if_neg c2, if_neg c3] at h
              cases h
    · by_cases h0 : requested = 0
      · exact .inl h0
      · exact .inr (h1 h0 ▸ h3)
  · rintro ⟨⟨a, hd⟩, hr⟩
    have rs : ∀ {n e : Int} {r : Nat}, r ∈ [0, 2, 3, 4, 5, 6, 13, 14, 15] → ∃ hash alg, signingParams (.rsa n e) r = .ok (.ok (hash, alg)) := by
      intro n e r hr
      simp only [List.mem_cons, List.not_mem_nil, or_false] at hr
      rcases hr with rfl | rfl | rfl | rfl | rfl | rfl | rfl | rfl | rfl <;> exact ⟨_, _, by with_unfolding_all rfl⟩
    have ec : ∀ {c : List Nat} {x y : Int} {r : Nat}, c ∈ [[1,3,132,0,33], [1,2,840,10045,3,1,7], [1,3,132,0,34], [1,3,132,0,35]] → r ∈ [0, 9, 10, 11, 12] →
        ∃ hash alg, signingParams (.ecdsa c x y) r = .ok (.ok (hash, alg)) := by
      intro c x y r hc hr
      simp only [List.mem_cons, List.not_mem_nil, or_false] at hc hr
      rcases hc with rfl | rfl | rfl | rfl <;> rcases hr with rfl | rfl | rfl | rfl | rfl <;> exact ⟨_, _, by with_unfolding_all rfl⟩
    have h0 : ∀ {l : List Nat}, requested = 0 → requested ∈ 0 :: l := fun h => h ▸ List.mem_cons_self
    have hr' : ∀ {l : List Nat}, (requested ∈ l) → requested ∈ 0 :: l := fun h => List.mem_cons_of_mem _ h
    cases hd with
    | rsa => exact rs (hr.elim h0 (fun h => by cases h with | rsa h => exact hr' h))
    | p224 => exact ec (by decide) (hr.elim h0 (fun h => by cases h with | ecdsa h => exact hr' h))
    | p256 => exact ec (by decide) (hr.elim h0 (fun h => by cases h with | ecdsa h => exact hr' h))
    | p384 => exact ec (by decide) (hr.elim h0 (fun h => by cases h with | ecdsa h => exact hr' h))
    | p521 => exact ec (by decide) (hr.elim h0 (fun h => by cases h with | ecdsa h => exact hr' h))

/-- C87: what has to be given for a certificate to be made. -/
theorem C87_requires {env : CreateEnv} {t p : CertTemplate} {pub : Key} {signer : Option CertSigner} {der : Bytes} (h : createCert env t p pub signer = .ok (.ok der)) :
    ∃ s, signer = some s ∧ t.serial ≠ none ∧ MayAsk s.pub t.sigAlg ∧ KeyWritable pub ∧ TemplateWritable (t.ext.unlessIn t.extra) := by
  cases signer with
  | none => cases h
  | some s =>
    obtain ⟨n, hash, alg, keyBytes, keyAlg, issuer, subject, exts, h1, h2, h3, _, _, h6, _⟩ := createCert_inv h
    refine ⟨s, rfl, by simp [h1], C87_signing_iff.1 ⟨_, _, h2⟩, ?_, C86_succeeds_iff.1 ⟨_, h6⟩⟩
    cases pub with
    | rsa n e => exact .rsa
    | ecdsa c x y =>
      refine .ecdsa (Classical.byContradiction (fun hc => ?_))
      unfold marshalPublicKey at h3
      dsimp only at h3
      rw [if_neg hc] at h3
      cases h3
    | dsa => cases h3
    | none => cases h3

/-- C87: without a signer or without a serial number nothing is made. -/
theorem C87_refused {env : CreateEnv} {t p : CertTemplate} {pub : Key} {s : CertSigner} :
    createCert env t p pub none = .ok (.error .notSigner) ∧ (t.serial = none → createCert env t p pub (some s) = .ok (.error .noSerial)) := by
  refine ⟨rfl, fun h => ?_⟩
  unfold createCert
  dsimp only
  rw [if_pos h]

/-- C87: it panics only for unknown purposes and for hash functions that are not in the program. -/
theorem C87_panics {env : CreateEnv} {t p : CertTemplate} {pub : Key} {signer : Option CertSigner} {e : Panic} (h : createCert env t p pub signer = .error e) :
    e = .explicit ∧ ((∃ u ∈ (t.ext.unlessIn t.extra).extKeyUsage, keyPurposes.length ≤ u) ∨ ∃ hash ∈ algHashes.map (·.2), env.hash hash = none) := by
  cases signer with
  | none => cases h
  | some s =>
    unfold createCert at h
    dsimp only at h
    split at h
    · cases h
    · rcases hs : signingParams s.pub t.sigAlg with q | q | ⟨hash, alg⟩
      · exact absurd hs (signing_no_panic q)
      · rw [hs] at h; cases h
      · rw [hs] at h
        dsimp only at h
        rcases hk : marshalPublicKey env pub with q | ⟨keyBytes, keyAlg⟩
        · rw [hk] at h; cases h
        · rw [hk] at h
          rcases hi : subjectBytes env p with q | issuer
          · rw [hi] at h; cases h
          · rw [hi] at h
            rcases hj : subjectBytes env t with q | subject
            · rw [hj] at h; cases h
            · rw [hj] at h
              dsimp only at h
              rcases hb : buildExtensions env.asn t.ext (authorityKeyOf t p issuer subject) t.extra with q | q | exts
              · rw [hb] at h
                cases h
                obtain ⟨e1, e2⟩ := C86_panics_iff.1 hb
                exact ⟨e1, .inl e2⟩
              · rw [hb] at h; cases h
              · rw [hb] at h
                dsimp only at h
                obtain ⟨_, n, _, _, _, _, _, _, hm, _⟩ := signing_chosen (env := asnEnv0) hs
                unfold writeCert at h
                split at h
                · cases h
                · split at h
                  · next hn =>
                    cases h
                    exact ⟨rfl, .inr ⟨hash, List.mem_map.2 ⟨_, hm, rfl⟩, hn⟩⟩
                  · split at h
                    · cases h
                    · split at h <;> cases h

/-- Surroundings in which every time is written as the same text and read as 0, and hash functions return what they are given. -/
def toyCreateEnv : CreateEnv where
  asn := ⟨goUtf8Valid, fun _ => [], fun _ => some 0, fun _ => some 0⟩
  times := fun _ _ => some (23, b!"700101000000Z")
  hash := fun _ => some id
  point := fun _ _ _ => [4, 1, 2]

/-- A template of an authority called "a". -/
def toyCertTemplate : CertTemplate where
  serial := some 300
  sigAlg := 14
  rawSubject := [48, 12, 49, 10, 48, 8, 6, 3, 85, 4, 3, 19, 1, 97]
  ext := toyTemplate
  extra := [([1, 2, 3], true, [5, 0]), ([2, 5, 29, 54], false, [2, 1, 7])]

/-- A signer with an RSA key; a PSS signature is a one, the number of the hash function and eight bytes of the digest. -/
def toyCertSigner : CertSigner := ⟨.rsa 3233 17, fun pss hash digest => some (if pss then 1 :: UInt8.ofNat hash :: digest.take 8 else digest)⟩

/-- C87: the hypotheses of the theorems above are met by an authority with every extension and two extra ones, signed with PSS, for an RSA and an elliptic key. -/
theorem C87_example : (∃ der, createCert toyCreateEnv toyCertTemplate toyCertTemplate (.rsa 3233 17) (some toyCertSigner) = .ok (.ok der) ∧ der.length < 2 ^ 30) ∧
    (∃ der, createCert toyCreateEnv toyCertTemplate {} (.ecdsa [1,2,840,10045,3,1,7] 5 6) (some toyCertSigner) = .ok (.ok der) ∧ der.length < 2 ^ 30) ∧
    KeyReadable toyCreateEnv (fun _ _ => some (5, 6)) (.rsa 3233 17) ∧ KeyReadable toyCreateEnv (fun _ _ => some (5, 6)) (.ecdsa [1,2,840,10045,3,1,7] 5 6) ∧
    TemplateFits toyCertTemplate.ext ∧ (∀ e ∈ toyCertTemplate.extra, ValidOid e.1 ∧ e.1 ∉ understoodExts) ∧ LeafFits toyCreateEnv.asn toyCreateEnv.mar {} .time toyCertTemplate.notBefore ∧
    ∀ t ∈ [toyCertTemplate, {}], ∀ b, SubjectBytes toyCreateEnv t b → ∃ n, NameIs toyCreateEnv.asn b n := by
  have name : ∀ {b : Bytes} {v : rdnsTy.interp}, unmAll toyCreateEnv.asn rdnsTy b = .ok (some v) → ∃ n, NameIs toyCreateEnv.asn b n := fun h => ⟨_, _, unmAll_iff.1 h, rfl⟩
  have chk : ∀ {x : Go (Except CreateErr Bytes)}, (match x with | .ok (.ok l) => decide (l.length < 2 ^ 30) | _ => false) = true → ∃ der, x = .ok (.ok der) ∧ der.length < 2 ^ 30 := by
    intro x h
    rcases x with p | _ | l
    · cases h
    · cases h
    · exact ⟨l, rfl, of_decide_eq_true h⟩
  refine ⟨chk (by decide +kernel), chk (by decide +kernel), .rsa (by decide) (by decide) (by unfold IsInt64; decide), .ecdsa rfl, C86_example.1, ?_, ?_, ?_⟩
  · intro e he
    simp only [toyCertTemplate, List.mem_cons, List.not_mem_nil, or_false] at he
    rcases he with rfl | rfl <;> exact ⟨by unfold ValidOid; decide, by decide⟩
  · intro tag b h
    cases h
    exact .inl ⟨rfl, rfl⟩
  · intro t ht b hb
    simp only [List.mem_cons, List.not_mem_nil, or_false] at ht
    rcases ht with rfl | rfl
    · rcases hb with ⟨_, rfl⟩ | ⟨h, _⟩
      · exact name (v := [[([], [2, 5, 4, 3], some (.str (b!"a")), ())]]) (by with_unfolding_all rfl)
      · cases h
    · rcases hb with ⟨h, _⟩ | ⟨_, h⟩
      · exact absurd rfl h
      · have e : marshal toyCreateEnv.mar rdnsTy ([] : List (List (Bytes × List Nat × Option AnyVal × Unit))) = .ok [48, 0] := by with_unfolding_all rfl
        have : b = [48, 0] := (Except.ok.inj (e.symm.trans h)).symm
        subst this
        exact name (v := ([] : List (List (Bytes × List Nat × Option AnyVal × Unit)))) (by with_unfolding_all rfl)

/-- C87: a certificate signed with MD5 is made without an error, though `C87_signature_verifies` says that it is never accepted. -/
theorem C87_md5_made : ∃ der, createCert toyCreateEnv { toyCertTemplate with sigAlg := 2 } {} (.rsa 3233 17) (some toyCertSigner) = .ok (.ok der) := by
  have chk : ∀ {x : Go (Except CreateErr Bytes)}, (match x with | .ok (.ok _) => true | _ => false) = true → ∃ der, x = .ok (.ok der) := by
    intro x h
    rcases x with p | _ | l
    · cases h
    · cases h
    · exact ⟨l, rfl⟩
  exact chk (by decide +kernel)

end Apk
