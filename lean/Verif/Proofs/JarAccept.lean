import Verif.Proofs.JarSign
import Verif.Proofs.X509Exact
import Verif.Proofs.P7Exact
/-! # The signatures of the reference JAR signer -/
namespace Apk.Jar

variable {ce : CertEnv} {env : Env1} {t : TextCode (concreteEnv1 ce env)} {a : JarAlg} {tool : Bytes} {fs : List (Bytes × Bytes)} {ss : List Signer} {z : Zip1}

theorem inj_of_nodup {α β : Type} {l : List α} {g : α → β} (hn : (l.map g).Nodup) {x y : α} (hx : x ∈ l) (hy : y ∈ l) (h : g x = g y) : x = y := by
  induction l with
  | nil => cases hx
  | cons w ws ih =>
    rw [List.map_cons, List.nodup_cons] at hn
    rcases List.mem_cons.1 hx with ex | hx' <;> rcases List.mem_cons.1 hy with ey | hy'
    · rw [ex, ey]
    · exact absurd (List.mem_map.2 ⟨y, hy', by rw [← h, ex]⟩) hn.1
    · exact absurd (List.mem_map.2 ⟨x, hx', by rw [h, ey]⟩) hn.1
    · exact ih hn.2 hx' hy'

theorem unmOid_of {oid : List Nat} {b : Bytes} (h : OidElem oid b) : (concreteEnv1 ce env).unmOid b = some oid := by
  have h1 : unmFirst ce.toAsnEnv .oid b = .ok (some ((oid : Ty.oid.interp), [])) := unmFirst_iff.2 (reads_oidElem.2 h)
  show noPanic (unmValue ce.toAsnEnv .oid b) = some oid
  unfold unmValue
  rw [h1]
  rfl

theorem unmOctets_of {c b : Bytes} (h : Elem 0 4 false c b) : (concreteEnv1 ce env).unmOctets b = some c := by
  have h1 : unmFirst ce.toAsnEnv .octets b = .ok (some ((c : Ty.octets.interp), [])) := unmFirst_iff.2 (reads_octets_iff.2 ⟨b, h, (List.append_nil _).symm⟩)
  show noPanic (unmValue ce.toAsnEnv .octets b) = some c
  unfold unmValue
  rw [h1]
  rfl

theorem parseRdns_of {b : Bytes} {n : PName} (h : NameIs ce.toAsnEnv b n) : ∃ r, (concreteEnv1 ce env).parseRdns b = some r ∧ n = fillName r := by
  obtain ⟨v, h1, h2⟩ := nameIs_iff.1 h
  have h3 : unmFirst ce.toAsnEnv rdnsTy b = .ok (some (v, [])) := unmFirst_iff.2 (unmAll_iff.1 h1)
  refine ⟨rdnsOf v, ?_, h2⟩
  show noPanic (rdnsParse ce.toAsnEnv b) = _
  unfold rdnsParse
  rw [h3]
  rfl

/-- The block as read. -/
def p7Of (s : Signer) : P7 := ⟨s.parsed, [s.info], s.contentType⟩

theorem signs_of {s : Signer} {sf d : Bytes} {maxSdk : Int} (h : SignedOver (concreteEnv1 ce env) s.contentType s.info sf d) :
    Signs (concreteEnv1 ce env) (p7Of s) sf maxSdk s.info d := by
  cases h with
  | direct h => exact .direct h
  | @attributes pre mid post ct md hash c d h1 h2 h3 h4 h5 h6 h7 h8 h9 h10 =>
    refine .attributes (h := hash) (by rw [h1]; simp) (fun _ => ?_) h6 ?_ (C58_der_attributes_unchanged h8 h9 h10)
    · refine ⟨pre, ct, mid ++ md :: post, by rw [h1]; simp, h3, ?_, unmOid_of h4⟩
      intro x hx
      simp only [List.mem_append, List.mem_cons] at hx
      rcases hx with hx | hx | rfl | hx
      · exact (h2 x (by simp [hx])).1
      · exact (h2 x (by simp [hx])).1
      · rw [h5]; decide
      · exact (h2 x (by simp [hx])).1
    · refine ⟨pre ++ ct :: mid, md, post, by rw [h1], h5, ?_, unmOctets_of h7⟩
      intro x hx
      simp only [List.mem_append, List.mem_cons] at hx
      rcases hx with (hx | rfl | hx) | hx
      · exact (h2 x (by simp [hx])).2
      · rw [h3]; decide
      · exact (h2 x (by simp [hx])).2
      · exact (h2 x (by simp [hx])).2

theorem signerCert_of {s : Signer} {sf : Bytes} (h : s.Ok ce (concreteEnv1 ce env) sf) : SignerCert (concreteEnv1 ce env) (p7Of s) s.info s.cert := by
  obtain ⟨r, h1, h2⟩ := parseRdns_of (env := env) h.issuer
  obtain ⟨pre, post, h3, h4⟩ := h.cert
  refine ⟨r, h1, ⟨pre, post, h3, ⟨h.serial, by rw [h2]; exact rfl⟩, ?_⟩, h.extensions⟩
  intro c hc hn
  exact h4 c hc (by rw [← hn.1, h.serial])

theorem considered_one (s : Signer) (minSdk : Int) : considered (p7Of s) minSdk = [s.info] := by
  unfold considered p7Of
  split <;> rfl

theorem blockSigns_of {s : Signer} {sf : Bytes} (h : s.Ok ce (concreteEnv1 ce env) sf) (minSdk maxSdk : Int) :
    BlockSigns (concreteEnv1 ce env) (p7Of s) sf minSdk maxSdk s.cert := by
  obtain ⟨algo, d, h1, h2, h3⟩ := h.signature
  exact ⟨[], s.info, [], considered_one s minSdk, (fun _ h => by cases h), signerCert_of h, ⟨algo, d, h1, signs_of h2, h3⟩, fun _ h => by cases h⟩

theorem blockSigns_unique {s : Signer} {sf : Bytes} (h : s.Ok ce (concreteEnv1 ce env) sf) {minSdk maxSdk : Int} {leaf : Cert} {x : Bytes}
    (hb : BlockSigns (concreteEnv1 ce env) (p7Of s) x minSdk maxSdk leaf) : leaf = s.cert := by
  obtain ⟨pre, info, post, e, _, h1, _⟩ := hb
  rw [considered_one] at e
  have hi : info = s.info := by
    cases pre with
    | nil => simp at e; exact e.1.symm
    | cons y ys => simp at e
  subst hi
  exact h1.unique (signerCert_of h)

/-- The signature file as read. -/
def smOf (t : TextCode env) (a : JarAlg) (tool : Bytes) (fs : List (Bytes × Bytes)) (s : Signer) : Manifest :=
  match parseManifestData false (signatureFile t a tool fs s).bytes with
  | .ok (.ok m) => m
  | _ => {}

/-- The signature as read. -/
def readyOf (t : TextCode env) (a : JarAlg) (tool : Bytes) (fs : List (Bytes × Bytes)) (s : Signer) : Ready := ⟨s.stem, p7Of s, smOf t a tool fs s⟩

/-- What is assumed of the signed archive. -/
structure Setup (ce : CertEnv) (env : Env1) (t : TextCode (concreteEnv1 ce env)) (a : JarAlg) (tool : Bytes) (fs : List (Bytes × Bytes)) (ss : List Signer) (z : Zip1) : Prop where
  has : HasFiles z (contents t a tool fs ss)
  files : FilesOk fs
  toolPlain : PlainText tool
  stems : (ss.map Signer.stem).Nodup
  signers : ∀ s ∈ ss, s.Ok ce (concreteEnv1 ce env) (signatureFile t a tool fs s).bytes

theorem Setup.nodup (h : Setup ce env t a tool fs ss z) : ((contents t a tool fs ss).map (·.1)).Nodup :=
  contents_nodup h.files h.stems fun s hs => (h.signers s hs).ext

theorem Setup.sm (h : Setup ce env t a tool fs ss z) {s : Signer} (hs : s ∈ ss) :
    parseManifestData false (signatureFile t a tool fs s).bytes = .ok (.ok (smOf t a tool fs s)) ∧ (smOf t a tool fs s).rawData = (signatureFile t a tool fs s).bytes ∧
    (∀ k, mget (smOf t a tool fs s).main k = WSection.lookup (signatureFile t a tool fs s).main.attrs k) ∧ ∀ f ∈ fs, ∃ as, mget (smOf t a tool fs s).entries f.1 = some as := by
  obtain ⟨sm, h1, h2, h3, h4⟩ := signatureFile_read t a (tool := tool) h.files (h.signers s hs).tool.1 (h.signers s hs).schemes
  have e : smOf t a tool fs s = sm := by unfold smOf; rw [h1]
  rw [e]
  exact ⟨h1, h2, h3, h4⟩

theorem Setup.blockData (h : Setup ce env t a tool fs ss z) {s : Signer} (hs : s ∈ ss) : IsBlockData (concreteEnv1 ce env) s.block (p7Of s) := by
  obtain ⟨tr, d, h1, h2, h3, h4⟩ := (h.signers s hs).block
  have hf := C41_flattened_to_the_same_tree_partial h1 h2 h3 []
  rw [List.append_nil] at hf
  exact ⟨d, hf, C55_message_read_back h4 (h.signers s hs).certs⟩

theorem firstCopy_of {α : Type} {good : Bytes → α → Prop} {bad : Bytes → Prop} {f : ZFile} {p : Bytes × Bytes} {v : α} (hf : IsFile f p) (hg : good p.2 v) : FirstCopy good bad f v :=
  ⟨hf.2.2.1, [], p.2, [], hf.2.2.2, hg, fun _ h => by cases h⟩

theorem firstCopy_inv {α : Type} {good : Bytes → α → Prop} {bad : Bytes → Prop} {f : ZFile} {p : Bytes × Bytes} {v : α} (hf : IsFile f p) (h : FirstCopy good bad f v) : good p.2 v := by
  obtain ⟨_, pre, d, post, e, hg, _⟩ := h
  rw [hf.2.2.2] at e
  cases pre with
  | nil => simp at e; rw [e.1]; exact hg
  | cons y ys => simp at e

/-- The pairs of the archive are the files of the signers. -/
theorem Setup.pair (h : Setup ce env t a tool fs ss z) {fb fsf : ZFile} (hp : SigPairOf z fb fsf) :
    ∃ s ∈ ss, IsFile fb (blockName s, s.block) ∧ IsFile fsf (sfName s, (signatureFile t a tool fs s).bytes) := by
  obtain ⟨base, ext, h1, he, hbase, hn, hf⟩ := hp
  obtain ⟨p, hp, hfb⟩ := h.has.mem h1
  have hname : p.1 = base ++ ext := by rw [← hfb.1, hn]
  have noext : ∀ {e : Bytes}, BlockExt e → e = b!".SF" ∨ e = b!".MF" → False := by
    rintro e (rfl | rfl | rfl) (h | h) <;> exact absurd h (by decide)
  rcases contents_mem.1 hp with hm | rfl | ⟨s, hs, rfl⟩ | ⟨s, hs, rfl⟩
  · exact absurd (by rw [hname]; exact List.suffix_append _ _) ((h.files.unsigned p hm (by rw [hname]; exact hbase.trans (List.prefix_append _ _))).2 ext (.inl he))
  · rw [manifest_name] at hname
    exact (noext he (.inr (ext_unique hname.symm (.inl he) (.inr (.inr rfl))))).elim
  · exact (noext he (.inl (ext_unique (show base ++ ext = _ from hname.symm) (.inl he) (.inr (.inl rfl))))).elim
  · have e := ext_unique (show base ++ ext = _ from hname.symm) (.inl he) (.inl (h.signers s hs).ext)
    have hb : base = b!"META-INF/" ++ s.stem := by
      have hname : b!"META-INF/" ++ s.stem ++ s.ext = base ++ ext := hname
      rw [e] at hname
      exact (List.append_cancel_right hname).symm
    refine ⟨s, hs, hfb, ?_⟩
    obtain ⟨g1, g2⟩ := (h.has.find h.nodup).1 hf
    obtain ⟨q, hq, hfs⟩ := h.has.mem g1
    have : q = (sfName s, (signatureFile t a tool fs s).bytes) := by
      have hq2 : (sfName s, (signatureFile t a tool fs s).bytes) ∈ contents t a tool fs ss := contents_mem.2 (.inr (.inr (.inl ⟨s, hs, rfl⟩)))
      have e1 : q.1 = sfName s := by rw [← hfs.1, g2, hb]; rfl
      exact inj_of_nodup h.nodup hq hq2 e1
    rw [← this]
    exact hfs

theorem Setup.pairOf (h : Setup ce env t a tool fs ss z) {s : Signer} (hs : s ∈ ss) :
    ∃ fb fsf, SigPairOf z fb fsf ∧ IsFile fb (blockName s, s.block) ∧ IsFile fsf (sfName s, (signatureFile t a tool fs s).bytes) := by
  obtain ⟨fb, h1, h2⟩ := h.has.get (contents_mem.2 (.inr (.inr (.inr ⟨s, hs, rfl⟩))))
  obtain ⟨fsf, h3, h4⟩ := h.has.get (contents_mem.2 (.inr (.inr (.inl ⟨s, hs, rfl⟩))))
  exact ⟨fb, fsf, ⟨b!"META-INF/" ++ s.stem, s.ext, h1, (h.signers s hs).ext, List.prefix_append _ _, h2.1, (h.has.find h.nodup).2 ⟨h3, h4.1⟩⟩, h2, h4⟩

theorem Setup.stem (h : Setup ce env t a tool fs ss z) {s : Signer} (hs : s ∈ ss) {fb : ZFile} {d : Bytes} (hf : IsFile fb (blockName s, d)) : BlockStem fb s.stem :=
  ⟨b!"META-INF/", s.ext, hf.1, (h.signers s hs).ext, by rw [hf.1]; exact metaInf_prefix _ _, (h.signers s hs).stem, .inr (by decide)⟩

theorem Setup.signature (h : Setup ce env t a tool fs ss z) (r : Ready) : TheSignature (concreteEnv1 ce env) z r ↔ ∃ s ∈ ss, r = readyOf t a tool fs s := by
  constructor
  · rintro ⟨fb, fsf, hp, hst, h1, h2⟩
    obtain ⟨s, hs, g1, g2⟩ := h.pair hp
    refine ⟨s, hs, ?_⟩
    obtain ⟨d, b1, b2⟩ := firstCopy_inv g1 h1
    obtain ⟨d', b3, b4⟩ := h.blockData hs
    have e1 : r.p7 = p7Of s := by
      have b1 : ber2der s.block = .ok (.ok d) := b1
      rw [b3] at b1
      cases b1
      rw [b4] at b2
      exact (Option.some.inj b2).symm
    have e2 : r.sm = smOf t a tool fs s := by
      have m1 : parseManifestData false (signatureFile t a tool fs s).bytes = .ok (.ok r.sm) := firstCopy_inv g2 h2
      rw [(h.sm hs).1] at m1
      exact (Except.ok.inj (Except.ok.inj m1)).symm
    have e3 : r.name = s.stem := by rw [blockStem_prefix hst, ← blockStem_prefix (h.stem hs g1)]
    cases r
    simp only at e1 e2 e3
    rw [e1, e2, e3]
    rfl
  · rintro ⟨s, hs, rfl⟩
    obtain ⟨fb, fsf, h1, h2, h3⟩ := h.pairOf hs
    exact ⟨fb, fsf, h1, h.stem hs h2, firstCopy_of h2 (h.blockData hs), firstCopy_of h3 (h.sm hs).1⟩

theorem Setup.signaturesAre (h : Setup ce env t a tool fs ss z) : SignaturesAre (concreteEnv1 ce env) z (ss.map (readyOf t a tool fs)) := by
  refine ⟨fun r => ?_, ?_⟩
  · rw [h.signature, List.mem_map]
    exact ⟨fun ⟨s, h1, h2⟩ => ⟨s, h1, h2.symm⟩, fun ⟨s, h1, h2⟩ => ⟨s, h1, h2.symm⟩⟩
  · have : ((ss.map (readyOf t a tool fs)).map Ready.name).Nodup := by
      rw [List.map_map]; exact h.stems
    exact List.Pairwise.of_map Ready.name (fun a b h e => h (e ▸ rfl)) this

theorem Setup.distinctStems (h : Setup ce env t a tool fs ss z) : DistinctStems z := by
  have hn := h.has.names h.nodup
  refine List.Pairwise.imp_of_mem ?_ (List.pairwise_map.1 hn)
  intro f g hf hg hne n h1 h2
  have stemOf : ∀ {f : ZFile}, f ∈ z.zip.ordered → BlockStem f n → ∃ s ∈ ss, f.name = blockName s ∧ s.stem = n := by
    intro f hf hst
    obtain ⟨p, hp, hfp⟩ := h.has.mem hf
    have hst' := hst
    obtain ⟨dir, ext, hn, he, hm, _, _⟩ := hst
    have noext : ∀ {e : Bytes}, BlockExt e → e = b!".SF" ∨ e = b!".MF" → False := by
      rintro e (rfl | rfl | rfl) (h | h) <;> exact absurd h (by decide)
    have hname : p.1 = dir ++ n ++ ext := by rw [← hfp.1, hn]
    rcases contents_mem.1 hp with hm' | rfl | ⟨s, hs, rfl⟩ | ⟨s, hs, rfl⟩
    · exact absurd (by rw [hname]; exact List.suffix_append _ _) ((h.files.unsigned p hm' (by rw [← hfp.1]; exact hm)).2 ext (.inl he))
    · rw [manifest_name] at hname
      exact (noext he (.inr (ext_unique hname.symm (.inl he) (.inr (.inr rfl))))).elim
    · exact (noext he (.inl (ext_unique (show dir ++ n ++ ext = _ from hname.symm) (.inl he) (.inr (.inl rfl))))).elim
    · exact ⟨s, hs, hfp.1, by rw [blockStem_prefix hst', ← blockStem_prefix (h.stem hs hfp)]⟩
  obtain ⟨s, hs, e1, e2⟩ := stemOf hf h1
  obtain ⟨s', hs', e3, e4⟩ := stemOf hg h2
  have : s = s' := inj_of_nodup h.stems hs hs' (by rw [e2, e4])
  subst this
  exact hne (by rw [e1, e3])

theorem HasFiles.byName {l : List (Bytes × Bytes)} (h : HasFiles z l) (hn : (l.map (·.1)).Nodup) {f : ZFile} {k : Bytes} :
    z.zip.file k = some f ↔ f ∈ z.zip.ordered ∧ f.name = k := by
  rw [h.file]
  exact h.find hn

theorem manifest_prefix : (b!"META-INF/") <+: b!"META-INF/MANIFEST.MF" := ⟨b!"MANIFEST.MF", by decide⟩

/-- The manifest as read. -/
def mfOf (t : TextCode env) (a : JarAlg) (tool : Bytes) (fs : List (Bytes × Bytes)) : Manifest :=
  match parseManifestData true (manifest t a tool fs).bytes with
  | .ok (.ok m) => m
  | _ => {}

theorem Setup.mf (h : Setup ce env t a tool fs ss z) :
    parseManifestData true (manifest t a tool fs).bytes = .ok (.ok (mfOf t a tool fs)) ∧ (mfOf t a tool fs).rawData = (manifest t a tool fs).bytes ∧
    (mfOf t a tool fs).rawData.take (mfOf t a tool fs).mainEnd = (manifest t a tool fs).main.bytes ∧
    (∀ n as, (n, as) ∈ (mfOf t a tool fs).entries → n ∈ fs.map (·.1)) ∧
    ∀ f ∈ fs, ∃ as, mget (mfOf t a tool fs).entries f.1 = some as ∧ OneDigest (concreteEnv1 ce env) as (b!"-digest") a (some (a.hash (concreteEnv1 ce env) f.2)) := by
  obtain ⟨mf, h1, h2⟩ := manifest_read t a h.toolPlain h.files
  have e : mfOf t a tool fs = mf := by unfold mfOf; rw [h1]
  rw [e]
  exact ⟨h1, h2⟩

theorem Setup.theManifest (h : Setup ce env t a tool fs ss z) : TheManifest z (mfOf t a tool fs) := by
  obtain ⟨f, h1, h2⟩ := h.has.get (contents_mem.2 (.inr (.inl rfl)))
  refine ⟨f, ?_, firstCopy_of h2 h.mf.1⟩
  have := filter_name (h.has.names h.nodup) h1
  rw [h2.1] at this
  exact this

theorem Setup.readable (h : Setup ce env t a tool fs ss z) : PairsReadable (concreteEnv1 ce env) z := by
  intro fb fsf hp
  obtain ⟨s, hs, h1, h2⟩ := h.pair hp
  exact ⟨⟨_, firstCopy_of h1 (h.blockData hs)⟩, .inl ⟨_, firstCopy_of h2 (h.sm hs).1⟩⟩

theorem Setup.required (h : Setup ce env t a tool fs ss z) {p : Bytes} (hr : Required z p) : ∃ f ∈ fs, f.1 = p := by
  rcases hr with ⟨f, h1, h2, h3, h4⟩ | ⟨rfl, h1, h2⟩
  · obtain ⟨g1, g2⟩ := (h.has.byName h.nodup).1 h1
    obtain ⟨q, hq, hf⟩ := h.has.mem g1
    have e : q.1 = p := by rw [← hf.1, g2]
    rcases contents_mem.1 hq with hm | rfl | ⟨s, hs, rfl⟩ | ⟨s, hs, rfl⟩
    · exact ⟨q, hm, e⟩
    · exact absurd (by rw [← e]; exact manifest_prefix) h4
    · exact absurd (by rw [← e]; exact metaInf_prefix _ _) h4
    · exact absurd (by rw [← e]; exact metaInf_prefix _ _) h4
  · have no : ∀ {k : Bytes}, k ∈ fs.map (·.1) → (∀ f, z.zip.file k = some f → f.isDir = true) → False := by
      intro k hk hd
      obtain ⟨q, hq, rfl⟩ := List.mem_map.1 hk
      obtain ⟨f, g1, g2⟩ := h.has.get (contents_mem.2 (.inl hq))
      have := hd f ((h.has.byName h.nodup).2 ⟨g1, g2.1⟩)
      rw [g2.2.1] at this
      cases this
    rcases h.files.app with ha | ha
    · exact (no ha h1).elim
    · exact (no ha h2).elim

/-- Every signature counts. -/
theorem Setup.counts (h : Setup ce env t a tool fs ss z) (hl : env.toLower [] = []) {minSdk maxSdk : Int} {s : Signer} (hs : s ∈ ss) (ha : AlgFor minSdk maxSdk s.alg) :
    Counts (concreteEnv1 ce env) (mfOf t a tool fs) minSdk maxSdk (readyOf t a tool fs s) := by
  obtain ⟨w1, w2, w3, w4, w5⟩ := sf_whole (h.sm hs).2.2.1
  refine ⟨⟨_, w4⟩, .inl ⟨_, .inr ⟨?_, rfl⟩, w1.entryOk (show (concreteEnv1 ce env).toLower [] = [] from hl) ha (by show JarAlg.hash _ _ _ = _; rw [h.mf.2.1])⟩⟩
  rintro ⟨v, hv, hn⟩
  have hv : mget (smOf t a tool fs s).main (b!"created-by") = some v := hv
  rw [w3] at hv
  cases hv
  exact (h.signers s hs).tool.2 hn

theorem Setup.countsFor (h : Setup ce env t a tool fs ss z) (hl : env.toLower [] = []) {minSdk maxSdk : Int} (ha : ∀ s ∈ ss, AlgFor minSdk maxSdk s.alg) {p : Bytes}
    (hr : Required z p) : ∀ r ∈ ss.map (readyOf t a tool fs), CountsFor (concreteEnv1 ce env) (mfOf t a tool fs) minSdk maxSdk p r := by
  intro r hm
  obtain ⟨s, hs, rfl⟩ := List.mem_map.1 hm
  obtain ⟨f, hf, rfl⟩ := h.required hr
  exact ⟨h.counts hl hs (ha s hs), (h.sm hs).2.2.2 f hf⟩

theorem Setup.accepted (h : Setup ce env t a tool fs ss z) (hl : env.toLower [] = []) {hasBlock : Bool} {minSdk maxSdk : Int} (ham : AlgFor minSdk maxSdk a)
    (ha : ∀ s ∈ ss, AlgFor minSdk maxSdk s.alg) (hne : ss ≠ []) (hten : ss.length ≤ 10)
    (hd : hasBlock = false → 24 ≤ maxSdk → ∀ s ∈ ss, ∀ ids, s.schemes = some ids → ¬ ListsTwo ids) :
    JarAccepted (concreteEnv1 ce env) z (mfOf t a tool fs) (ss.map (readyOf t a tool fs)) hasBlock minSdk maxSdk := by
  refine ⟨?_, ?_, ?_, ?_, by simpa using hten, ?_, ?_, ?_⟩
  · intro r hm
    obtain ⟨s, hs, rfl⟩ := List.mem_map.1 hm
    refine ⟨s.cert, ?_⟩
    show BlockSigns _ (p7Of s) (smOf t a tool fs s).rawData _ _ _
    rw [(h.sm hs).2.1]
    exact blockSigns_of (h.signers s hs) minSdk maxSdk
  · intro hb hx r hm ids hi
    obtain ⟨s, hs, rfl⟩ := List.mem_map.1 hm
    have := (sf_whole (h.sm hs).2.2.1).2.2.2.2
    exact hd hb hx s hs ids (by rw [← this]; exact hi)
  · intro r hm _
    obtain ⟨s, hs, rfl⟩ := List.mem_map.1 hm
    refine (sf_whole (h.sm hs).2.2.1).2.1.mainAttrs (show (concreteEnv1 ce env).toLower [] = [] from hl) ?_
    intro x hx
    rw [h.mf.2.2.1]
    cases hm' : s.mainDigest with
    | false => rw [hm'] at hx; cases hx
    | true => rw [hm'] at hx; cases hx; rfl
  · obtain ⟨s, ss', rfl⟩ := List.exists_cons_of_ne_nil hne
    exact ⟨_, List.mem_map.2 ⟨s, List.mem_cons_self, rfl⟩, h.counts hl List.mem_cons_self (ha s List.mem_cons_self)⟩
  · intro n as hm
    obtain ⟨q, hq, rfl⟩ := List.mem_map.1 (h.mf.2.2.2.1 n as hm)
    obtain ⟨f, g1, g2⟩ := h.has.get (contents_mem.2 (.inl hq))
    exact ⟨f, (h.has.byName h.nodup).2 ⟨g1, g2.1⟩⟩
  · intro p hr
    obtain ⟨q, hq, rfl⟩ := h.required hr
    obtain ⟨as, h1, h2⟩ := h.mf.2.2.2.2 q hq
    obtain ⟨f, g1, g2⟩ := h.has.get (contents_mem.2 (.inl hq))
    refine ⟨as, f, h1, (h.has.byName h.nodup).2 ⟨g1, g2.1⟩, h2.entryOk (show (concreteEnv1 ce env).toLower [] = [] from hl) ham ⟨q.2, ⟨g2.2.2.1, by rw [g2.2.2.2]; simp⟩, rfl⟩, ?_⟩
    obtain ⟨s, ss', rfl⟩ := List.exists_cons_of_ne_nil hne
    have hm : readyOf t a tool fs s ∈ (s :: ss').map (readyOf t a tool fs) := List.mem_map.2 ⟨s, List.mem_cons_self, rfl⟩
    exact ⟨_, hm, h.countsFor hl ha hr _ hm⟩
  · intro p q hp hq
    have all : ∀ {p}, Required z p → ∀ r ∈ ss.map (readyOf t a tool fs), CountsFor (concreteEnv1 ce env) (mfOf t a tool fs) minSdk maxSdk p r := h.countsFor hl ha
    refine ⟨List.countP_congr fun r hr => by simp [all hp r hr, all hq r hr], fun raws => ⟨?_, ?_⟩⟩
    · rintro ⟨r, h1, _, h2⟩; exact ⟨r, h1, all hq r h1, h2⟩
    · rintro ⟨r, h1, _, h2⟩; exact ⟨r, h1, all hp r h1, h2⟩

/-- The chain that a signature contributes is that of the certificate of the signer. -/
theorem Setup.sigChain (h : Setup ce env t a tool fs ss z) {minSdk maxSdk : Int} {s : Signer} (hs : s ∈ ss) {raws : List Bytes} :
    SigChain (concreteEnv1 ce env) minSdk maxSdk (readyOf t a tool fs s) raws ↔ ∃ ch, ChainIs (concreteEnv1 ce env) s.parsed s.cert ch ∧ raws = ch.map Cert.raw := by
  constructor
  · rintro ⟨leaf, ch, h1, h2, h3⟩
    have := blockSigns_unique (h.signers s hs) h1
    subst this
    exact ⟨ch, h2, h3⟩
  · rintro ⟨ch, h1, h2⟩
    refine ⟨s.cert, ch, ?_, h1, h2⟩
    show BlockSigns _ (p7Of s) (smOf t a tool fs s).rawData _ _ _
    rw [(h.sm hs).2.1]
    exact blockSigns_of (h.signers s hs) minSdk maxSdk

theorem Setup.chains (h : Setup ce env t a tool fs ss z) {minSdk maxSdk : Int} {P : Ready → Prop} {c : List (List Cert)}
    (hp : ∀ r ∈ ss.map (readyOf t a tool fs), P r) (hc : ChainsOf (concreteEnv1 ce env) minSdk maxSdk (ss.map (readyOf t a tool fs)) P c) :
    c.length = ss.length ∧ ∀ raws, raws ∈ c.map (fun ch => ch.map Cert.raw) ↔
      ∃ s ∈ ss, ∃ ch, ChainIs (concreteEnv1 ce env) s.parsed s.cert ch ∧ raws = ch.map Cert.raw := by
  refine ⟨?_, fun raws => ?_⟩
  · rw [hc.1, List.countP_eq_length.2 fun r hr => by simp [hp r hr], List.length_map]
  · rw [hc.2]
    constructor
    · rintro ⟨r, h1, _, h2⟩
      obtain ⟨s, hs, rfl⟩ := List.mem_map.1 h1
      exact ⟨s, hs, (h.sigChain hs).1 h2⟩
    · rintro ⟨s, hs, h2⟩
      have hm : readyOf t a tool fs s ∈ ss.map (readyOf t a tool fs) := List.mem_map.2 ⟨s, hs, rfl⟩
      exact ⟨_, hm, hp _ hm, (h.sigChain hs).2 h2⟩

end Apk.Jar
