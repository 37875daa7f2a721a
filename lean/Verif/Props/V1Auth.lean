import Verif.Props.V1
import Verif.Proofs.V1Panic
import Verif.Proofs.ManifestTrim
/-! # C46 (reported chains), C50 (authenticity of v1-signed files), C51 (panics of the v1 verifier) -/
namespace Apk

/-! ## C46 -/

/-- The certificate chain `ch` belongs to a signature of the archive: it starts with one of the embedded certificates, is linked
    issuer to subject, contains only embedded certificates and is at most one longer than their list. -/
structure ChainFor (env : Env1) (p7 : P7) (ch : List Cert) : Prop where
  linked : Linked env ch
  mem : ∀ c ∈ ch, c ∈ p7.certs
  len : ch.length ≤ p7.certs.length + 1

theorem fromSig_chain {env : Env1} {z : Zip1} {minSdk maxSdk : Int} {sigs : List Ready} (hs : ∀ r ∈ sigs, Signature env z r.p7 r.sm)
    {ch : List Cert} (h : FromSig env minSdk maxSdk sigs ch) : ∃ p7 sm, Signature env z p7 sm ∧ ChainFor env p7 ch := by
  obtain ⟨s, hm, e, he⟩ := h
  obtain ⟨leaf, rest, _, h2, h3, h4, _⟩ := verifySignature1_chain he
  exact ⟨s.p7, s.sm, hs s hm, h2, h3, h4⟩

/-- C46: every chain reported by v1 verification, whether it succeeds or fails, is linked, drawn from the certificates of one
    signature block of the archive, and of bounded length. -/
theorem C46_reported_chains (env : Env1) (ord : Ord1) (z : Zip1) (hasBlock : Bool) (minSdk maxSdk : Int) (c : List (List Cert)) (e : Option V1E)
    (h : verifySchemeV1 env ord z hasBlock minSdk maxSdk = .ok (c, e)) (ch : List Cert) (hch : ch ∈ c) :
    ∃ p7 sm, Signature env z p7 sm ∧ ChainFor env p7 ch := by
  unfold verifySchemeV1 at h
  split at h
  · cases h
  · cases h; cases hch
  · rename_i mf sigs hn
    obtain ⟨_, hs, _⟩ := newSchemeV1_sound hn
    exact fromSig_chain hs (verifyV1Loaded_from h ch hch)

/-- C46 for `ExtractCerts`. -/
theorem C46_extracted_chains (env : Env1) (ord : Ord1) (z : Zip1) (minSdk maxSdk : Int) (c : List (List Cert)) (e : Option V1E)
    (h : extractCertsV1 env ord z minSdk maxSdk = .ok (c, e)) (ch : List Cert) (hch : ch ∈ c) :
    ∃ p7 sm, Signature env z p7 sm ∧ ChainFor env p7 ch := by
  unfold extractCertsV1 at h
  split at h
  · cases h
  · cases h; cases hch
  · rename_i mf sigs hn
    obtain ⟨_, hs, _⟩ := newSchemeV1_sound hn
    split at h
    · cases h
    · rename_i c' bad hl
      cases h
      exact fromSig_chain hs (extractLoop_from (st := ([], false)) (fun s hs' => (ord.sigs_perm sigs).mem_iff.1 hs') (by simp) hl ch hch)

/-- C46: the chain of one signature. On success it starts with the certificate of the first signer info that verifies and ends
    because the last certificate is self-issued, has no issuer among the embedded ones, or the length limit is reached; along
    with an error it is a single certificate. -/
theorem C46_signature_chain (env : Env1) (p7 : P7) (sf : Bytes) (minSdk maxSdk : Int) (ch : List Cert) (e : Option SigE)
    (h : verifySignature1 env p7 sf minSdk maxSdk = .ok (some ch, e)) :
    ∃ leaf rest, ch = leaf :: rest ∧ ChainFor env p7 ch ∧
      (e = none → ChainEnd env p7.certs ch ∧ ∃ info ∈ considered p7 minSdk, GoodSigner env p7 sf maxSdk info leaf) ∧
      (e ≠ none → rest = []) := by
  obtain ⟨leaf, rest, h1, h2, h3, h4, h5, h6⟩ := verifySignature1_chain h
  exact ⟨leaf, rest, h1, ⟨h2, h3, h4⟩, h5, h6⟩

namespace Toy

/-- A certificate of key `n` issued by the name `[i]`. -/
def issued (n i : UInt8) : Cert := { jcert n with issuer := { commonName := [i] } }

/-- A signature block with the chain 7 ← 8 ← 9 and a loop 9 ← 8. -/
def loopP7 (sf : Bytes) : P7 :=
  { p7Of 7 sf with
    certs := [issued 7 8, issued 9 8, issued 8 9]
    signers := [{ issuer := [8], serial := 0, digestAlg := [1,3,14,3,2,26], encAlg := [1,2,840,113549,1,1,1], attrs := [],
                  encDigest := signAny [1, 7] sf }] }

end Toy

/-- C46 is not vacuous: a chain of length one, and a cyclic set of certificates for which the length limit is reached. -/
theorem C46_examples :
    (∃ ch, verifySignature1 (Toy.env1 []) (Toy.p7Of 7 [1, 2]) [1, 2] 24 30 = .ok (some ch, none) ∧ ch.map Cert.raw = [[0xC0, 1, 7]]) ∧
    ∃ ch, verifySignature1 (Toy.env1 []) (Toy.loopP7 [1, 2]) [1, 2] 24 30 = .ok (some ch, none) ∧
      ch.map Cert.raw = [[0xC0, 1, 7], [0xC0, 1, 8], [0xC0, 1, 9], [0xC0, 1, 8]] := by
  have key : ∀ (r : Go (Option (List Cert) × Option SigE)) (l : List Bytes),
      (match r with | .ok (some ch, none) => decide (ch.map Cert.raw = l) | _ => false) = true →
      ∃ ch, r = .ok (some ch, none) ∧ ch.map Cert.raw = l := by
    intro r l h
    split at h
    · rename_i ch; exact ⟨ch, rfl, by simpa using h⟩
    · cases h
  exact ⟨key _ _ (by decide +kernel), key _ _ (by decide +kernel)⟩

/-! ## C50: authenticity -/

theorem JarAlg.name_inj {a b : JarAlg} (h : a.name = b.name) : a = b := by
  cases a <;> cases b <;> first | rfl | (exfalso; revert h; decide)

/-- The same attributes checked against two things: both agree with one of the recorded digests. -/
theorem EntryOk.pair {env : Env1} {attrs : Attrs} {suffix : Bytes} {minSdk maxSdk : Int} {P Q : JarAlg → Bytes → Prop}
    (h1 : EntryOk env attrs suffix minSdk maxSdk P) (h2 : EntryOk env attrs suffix minSdk maxSdk Q) : ∃ a h, P a h ∧ Q a h := by
  obtain ⟨n, hn⟩ := h1.1
  obtain ⟨a, d, e1, ⟨v, g1, g2⟩, hp⟩ := h1.2 n hn
  obtain ⟨b, d', e2, ⟨w, g3, g4⟩, hq⟩ := h2.2 n hn
  have : a = b := JarAlg.name_inj (e1.trans e2.symm)
  subst this
  rw [g1] at g3
  cases g3
  rw [g2] at g4
  cases g4
  exact ⟨a, d, hp, hq⟩

theorem parse_rawData {wc : Bool} {d : Bytes} {m : Manifest} (h : parseManifestData wc d = .ok (.ok m)) : m.rawData = d := by
  obtain ⟨_, _, _, _, _, r⟩ := parse_run h
  exact r.frame.1

theorem chunk_mem {d : Bytes} {m : Manifest} (h : parseManifestData true d = .ok (.ok m)) {n c : Bytes} (hc : mget m.chunks n = some c)
    {x : UInt8} (hx : x ∈ c) : x ∈ m.rawData := by
  obtain ⟨tail, h1, _, h2, _⟩ := C40_partition h
  rw [h2, h1]
  refine List.mem_append_left _ (List.mem_append_right _ ?_)
  exact List.mem_flatten.2 ⟨c, List.mem_map.2 ⟨(n, c), mget_mem hc, rfl⟩, hx⟩

/-- Sections that are hashed alike give the same entry. -/
theorem same_text_same_entry {p : Prop} {mf1 mf2 : Manifest} {k d1 d2 s1 s2 t : Bytes}
    (p1 : parseManifestData true d1 = .ok (.ok mf1)) (p2 : parseManifestData true d2 = .ok (.ok mf2))
    (c1 : mget mf1.chunks k = some s1) (c2 : mget mf2.chunks k = some s2) (hcr : p → 13 ∉ mf1.rawData)
    (u1 : sectionText p s1 t) (u2 : sectionText p s2 t) : ∃ as, mget mf1.entries k = some as ∧ mget mf2.entries k = some as := by
  obtain ⟨_, _, _, _, _, r1⟩ := parse_run p1
  obtain ⟨_, _, _, _, _, r2⟩ := parse_run p2
  obtain ⟨a1, e1, q1⟩ := (sectionsRun_entries r1 (fun _ => rfl) (fun _ _ h => by cases h)).2 k s1 c1
  obtain ⟨a2, e2, q2⟩ := (sectionsRun_entries r2 (fun _ => rfl) (fun _ _ h => by cases h)).2 k s2 c2
  suffices a1 = a2 by subst this; exact ⟨a1, e1, e2⟩
  have hno : p → ∀ x ∈ s1, x ≠ 13 := fun hp x hx h => hcr hp (h ▸ chunk_mem p1 c1 hx)
  rcases u1 with ⟨hp, u, rfl, rfl⟩ | ⟨_, rfl⟩
  · rcases u2 with ⟨_, u', rfl, ht⟩ | ⟨_, rfl⟩
    · have := List.append_cancel_right ht
      subst this
      exact (q1.unique q2).2
    · refine (SectionOf.snoc (n2 := k) (fun hm => hno hp 13 (List.mem_append_left _ hm) rfl) q2 ?_).symm
      simpa using q1
  · rcases u2 with ⟨hp, u', rfl, rfl⟩ | ⟨_, rfl⟩
    · refine SectionOf.snoc (n2 := k) (fun hm => hno hp 13 (List.mem_append_left _ hm) rfl) q1 ?_
      simpa using q2
    · exact (q1.unique q2).2

/-- The signature file covers both manifests: the entries for `k` are the same, or there is a collision. -/
theorem same_entry {env : Env1} {mf1 mf2 sm : Manifest} {minSdk maxSdk : Int} {k : Bytes} {d1 d2 : Bytes}
    (p1 : parseManifestData true d1 = .ok (.ok mf1)) (p2 : parseManifestData true d2 = .ok (.ok mf2))
    (hw : WholeOk env mf1 sm minSdk maxSdk) (hs : ∀ e ∈ sm.entries, SectionOk env mf1 sm minSdk maxSdk e.1 e.2)
    (hst : BySigntool sm → 13 ∉ mf1.rawData) (hc : Covers env mf2 sm minSdk maxSdk) (hk : ∃ as, mget sm.entries k = some as) :
    (∃ as, mget mf1.entries k = some as ∧ mget mf2.entries k = some as) ∨ Collide env mf1.rawData mf2.rawData ∨
      ∃ s1 t1 s2 t2, mget mf1.chunks k = some s1 ∧ sectionText (BySigntool sm) s1 t1 ∧ mget mf2.chunks k = some s2 ∧
        sectionText (BySigntool sm) s2 t2 ∧ Collide env t1 t2 := by
  obtain ⟨ss, hss⟩ := hk
  obtain ⟨s1, t1, c1, u1, w1⟩ := hs (k, ss) (mget_mem hss)
  rcases hc with hc | ⟨_, hc⟩
  · obtain ⟨x1, e1, w1⟩ := hw
    obtain ⟨x2, e2, w2⟩ := hc
    have q : x1 = x2 := by
      rcases e1 with e1 | e1
      · rcases e2 with e2 | e2
        · exact e1.2.trans e2.2.symm
        · exact absurd e1.1 e2.1
      · rcases e2 with e2 | e2
        · exact absurd e2.1 e1.1
        · exact e1.2.trans e2.2.symm
    subst q
    obtain ⟨a, h, g1, g2⟩ := w1.pair w2
    by_cases he : mf1.rawData = mf2.rawData
    · rw [parse_rawData p1, parse_rawData p2] at he
      subst he
      rw [p1] at p2
      cases p2
      have := C48_entry_has_section p1 k
      rw [c1] at this
      obtain ⟨as, ha⟩ := Option.isSome_iff_exists.1 (this.trans rfl)
      exact .inl ⟨as, ha, ha⟩
    · exact .inr (.inl ⟨he, a, g1.trans g2.symm⟩)
  · obtain ⟨s2, t2, c2, u2, w2⟩ := hc (k, ss) (mget_mem hss)
    obtain ⟨a, h, g1, g2⟩ := w1.pair w2
    by_cases he : t1 = t2
    · subst he
      exact .inl (same_text_same_entry p1 p2 c1 c2 hst u1 u2)
    · exact .inr (.inr ⟨s1, t1, s2, t2, c1, u1, c2, u2, he, a, g1.trans g2.symm⟩)

/-- C50: let `z1` be an archive as produced by a signer with the signature file `sf` (if signtool wrote it, the manifest has no
    carriage returns), and suppose v1 verification of `z2` succeeds and reports a chain whose first certificate signs nothing
    but `sf` in `z2`. Then every regular file of `z2` outside META-INF, other than AndroidManifest.xml, exists in `z1` and the
    two have a common copy; and if there is such a file, every file listed in `sf` exists in `z2`; or a concrete hash collision
    between corresponding parts of the two archives is given. -/
theorem C50_authentic_files (env : Env1) (ord : Ord1) (z1 z2 : Zip1) (hasBlock : Bool) (minSdk maxSdk : Int) (c : List (List Cert))
    (mf1 sm : Manifest) (sf : Bytes) (hgen : Genuine env z1 mf1 sm minSdk maxSdk) (hsf : parseManifestData false sf = .ok (.ok sm))
    (hst : BySigntool sm → 13 ∉ mf1.rawData) (h : verifySchemeV1 env ord z2 hasBlock minSdk maxSdk = .ok (c, none))
    (leaf : Cert) (rest : List Cert) (hleaf : (leaf :: rest) ∈ c)
    (honest : ∀ p7 sm2 info cert, Signature env z2 p7 sm2 → info ∈ p7.signers → cert.raw = leaf.raw →
      GoodSigner env p7 sm2.rawData maxSdk info cert → sm2.rawData = sf) :
    ∃ mf2, MainManifest z2 mf2 ∧
      (∀ k f2, Protected z2 k f2 →
        ∃ f1, z1.zip.file k = some f1 ∧ ((∃ d, Copy f1 d ∧ Copy f2 d) ∨ JarCollision env sm mf1 mf2 k f1 f2)) ∧
      ((∃ k f2, Protected z2 k f2) → ∀ k as, mget sm.entries k = some as →
        (∃ f2, z2.zip.file k = some f2) ∨ Collide env mf1.rawData mf2.rawData) := by
  obtain ⟨mf2, hmf2, hpres, hfiles⟩ := C38_accepted_covers_files_partial env ord z2 hasBlock minSdk maxSdk c h
  obtain ⟨_, d1, _, _, p1⟩ := hgen.manifest
  obtain ⟨_, d2, _, _, p2⟩ := id hmf2
  -- the honest signature file lists the file and covers the manifest
  have key : ∀ k f2, Protected z2 k f2 → (∃ as, mget sm.entries k = some as) ∧ Covers env mf2 sm minSdk maxSdk := by
    intro k f2 hk
    obtain ⟨_, _, hch⟩ := hfiles k f2 hk
    obtain ⟨leaf', rest', he, hsig⟩ := hch _ hleaf
    obtain ⟨p7, sm2, hS, hlist, _, hcov, info, hinfo, hgood⟩ := hsig.sig
    simp only [List.map_cons, List.cons.injEq] at he
    have hin : info ∈ p7.signers := by
      unfold considered at hinfo
      split at hinfo
      · exact List.mem_of_mem_take hinfo
      · exact hinfo
    have hraw := honest p7 sm2 info leaf' hS hin he.1.symm hgood
    obtain ⟨_, _, _, _, _, _, _, _, _, _, _, d, _, hp⟩ := hS.files
    have := parse_rawData hp
    rw [hraw] at this
    subst this
    rw [hsf] at hp
    cases hp
    exact ⟨hlist, hcov⟩
  refine ⟨mf2, hmf2, ?_, ?_⟩
  · intro k f2 hk
    obtain ⟨hlist, hcov⟩ := key k f2 hk
    obtain ⟨⟨as2, ha2, hok2⟩, _, _⟩ := hfiles k f2 hk
    -- the file exists in z1
    obtain ⟨ss, hss⟩ := id hlist
    obtain ⟨s1, t1, c1, u1, w1⟩ := hgen.sections (k, ss) (mget_mem hss)
    have hsec := C48_entry_has_section p1 k
    rw [c1] at hsec
    obtain ⟨as1, ha1⟩ := Option.isSome_iff_exists.1 (hsec.trans rfl)
    obtain ⟨f1, hf1, hok1⟩ := hgen.files k as1 ha1
    refine ⟨f1, hf1, ?_⟩
    rcases same_entry p1 p2 hgen.whole hgen.sections hst hcov hlist with ⟨as, g1, g2⟩ | hcol | ⟨s1', t1', s2, t2, q1, q2, q3, q4, q5⟩
    · rw [ha1] at g1
      rw [ha2] at g2
      cases g1; cases g2
      obtain ⟨a, hd, ⟨x, hx1, hx2⟩, y, hy1, hy2⟩ := hok1.pair hok2
      by_cases hxy : x = y
      · subst hxy
        exact .inl ⟨x, hx1, hy1⟩
      · exact .inr (.file x y hx1 hy1 ⟨hxy, a, hx2.trans hy2.symm⟩)
    · exact .inr (.manifest hcol)
    · exact .inr (.sect s1' t1' s2 t2 q1 q2 q3 q4 q5)
  · rintro ⟨k0, f0, hk0⟩ k as has
    obtain ⟨_, hcov⟩ := key k0 f0 hk0
    rcases same_entry (k := k) p1 p2 hgen.whole hgen.sections hst hcov ⟨as, has⟩ with ⟨as', _, g2⟩ | hcol | ⟨_, _, s2, _, _, _, q3, _, _⟩
    · exact .inl (hpres k as' g2)
    · exact .inr hcol
    · have hsec := C48_entry_has_section p2 k
      rw [q3] at hsec
      obtain ⟨as2, ha2⟩ := Option.isSome_iff_exists.1 (hsec.trans rfl)
      exact .inl (hpres k as2 ha2)

namespace Toy

/-- The parsed text, when it can be parsed. -/
def parsed (wc : Bool) (d : Bytes) : Manifest := match parseManifestData wc d with | .ok (.ok m) => m | _ => {}
/-- Whether the text can be parsed. -/
def parses (wc : Bool) (d : Bytes) : Bool := match parseManifestData wc d with | .ok (.ok _) => true | _ => false
/-- The manifest of the example archive. -/
def exMf : Manifest := parsed true (mfOf exFiles)
/-- The signature file of the example archive. -/
def exSm : Manifest := parsed false (sfOf [] exFiles)

theorem parse_getD {wc : Bool} {d : Bytes}
    (h : parses wc d = true) : parseManifestData wc d = .ok (.ok (parsed wc d)) := by
  unfold parses at h
  unfold parsed
  cases hp : parseManifestData wc d with
  | error p => rw [hp] at h; cases h
  | ok r =>
    cases r with
    | error e => rw [hp] at h; cases h
    | ok m => rfl

theorem parse_exMf : parseManifestData true (mfOf exFiles) = .ok (.ok exMf) := parse_getD (by decide +kernel)
theorem parse_exSm : parseManifestData false (sfOf [] exFiles) = .ok (.ok exSm) := parse_getD (by decide +kernel)

theorem exGenuine : Genuine (jarEnv [] exFiles) exZip exMf exSm 24 30 where
  manifest := ⟨file (b!"META-INF/MANIFEST.MF") (mfOf exFiles), mfOf exFiles, rfl, ⟨rfl, List.mem_singleton.2 rfl⟩, parse_exMf⟩
  whole := (wholeOk_iff ..).1 (by decide +kernel)
  sections := by
    intro e he
    rw [← checkSection_none]
    have : exSm.entries.all (fun e => (checkSection (jarEnv [] exFiles) exMf (signtoolFlag exSm) 24 30 e).isNone) = true := by decide +kernel
    exact Option.isNone_iff_eq_none.1 (List.all_eq_true.1 this e he)
  files := by
    intro k as h
    have : exMf.entries.all (fun e => match exZip.zip.file e.1 with
        | some f => (verifyEntry (jarEnv [] exFiles) e.2 (b!"-digest") 24 30 (verifyFileHash f)).isNone
        | none => false) = true := by decide +kernel
    have := List.all_eq_true.1 this (k, as) (mget_mem h)
    simp only at this
    split at this
    · rename_i f hf
      exact ⟨f, hf, (verifyEntry_file ..).1 (Option.isNone_iff_eq_none.1 this)⟩
    · cases this

end Toy

/-- The hypotheses of C50 are satisfiable, for two archives that differ (in AndroidManifest.xml), with a protected file. -/
theorem C50_example :
    Genuine (Toy.jarEnv [] Toy.exFiles) Toy.exZip Toy.exMf Toy.exSm 24 30 ∧
    parseManifestData false (Toy.sfOf [] Toy.exFiles) = .ok (.ok Toy.exSm) ∧ ¬ BySigntool Toy.exSm ∧
    (∃ c, verifySchemeV1 (Toy.jarEnv [] Toy.exFiles) Toy.ord Toy.exZipManifest false 24 30 = .ok (c, none) ∧
      ∃ leaf rest, (leaf :: rest) ∈ c) ∧
    (∃ f, Protected Toy.exZipManifest (b!"classes.dex") f) ∧
    ∀ p7 sm2, Signature (Toy.jarEnv [] Toy.exFiles) Toy.exZipManifest p7 sm2 → sm2.rawData = Toy.sfOf [] Toy.exFiles := by
  refine ⟨Toy.exGenuine, Toy.parse_exSm, ?_, ?_, ⟨_, rfl, rfl, by decide, by decide⟩, ?_⟩
  · rw [← signtoolFlag_iff]; decide +kernel
  · obtain ⟨c, h, hc⟩ := Toy.of_summary1 (r := verifySchemeV1 (Toy.jarEnv [] Toy.exFiles) Toy.ord Toy.exZipManifest false 24 30)
      (e := none) (l := [[[0xC0, 1, 7]]]) (by decide +kernel)
    refine ⟨c, h, ?_⟩
    cases c with
    | nil => cases hc
    | cons ch cs =>
      cases ch with
      | nil => cases hc
      | cons leaf rest => exact ⟨leaf, rest, List.mem_cons_self⟩
  · intro p7 sm2 hS
    obtain ⟨_, fs, base, _, _, hfs, _, hn, _, _, _, d, hd, hp⟩ := hS.files
    rw [parse_rawData hp]
    have : Toy.exZipManifest.zip.ordered.all (fun f => !(hasSuffix f.name (b!".SF")) || decide (f.attempts = [some (Toy.sfOf [] Toy.exFiles)])) = true := by
      decide +kernel
    have := List.all_eq_true.1 this fs hfs
    have hsuf : hasSuffix fs.name (b!".SF") = true := by
      unfold hasSuffix
      exact decide_eq_true ⟨base, hn.symm⟩
    rw [hsuf] at this
    simp only [Bool.not_true, Bool.false_or, decide_eq_true_eq] at this
    have h2 := hd.2
    rw [this, List.mem_singleton] at h2
    exact Option.some.inj h2

/-- Why C50 asks for a manifest without carriage returns in the case of signtool: two manifests whose sections for the file `f`
    differ in the final line feed, which is not hashed, but give different attributes to it. -/
theorem C50_signtool_witness :
    ∃ m1 m2, parseManifestData true (b!"V: 1" ++ [10, 10] ++ b!"Name: f" ++ [10] ++ b!"A: b" ++ [13, 32, 10, 10]) = .ok (.ok m1) ∧
      parseManifestData true (b!"V: 1" ++ [10, 10] ++ b!"Name: f" ++ [10] ++ b!"A: b" ++ [13, 32, 10]) = .ok (.ok m2) ∧
      (∃ s1 s2 t, mget m1.chunks (b!"f") = some s1 ∧ mget m2.chunks (b!"f") = some s2 ∧ sectionText True s1 t ∧ sectionText True s2 t) ∧
      mget m1.entries (b!"f") = some [(b!"a", b!"b")] ∧ mget m2.entries (b!"f") = some [] := by
  refine ⟨_, _, Toy.parse_getD (by decide +kernel), Toy.parse_getD (by decide +kernel),
    ⟨b!"Name: f" ++ [10] ++ b!"A: b" ++ [13, 32, 10, 10], b!"Name: f" ++ [10] ++ b!"A: b" ++ [13, 32, 10],
      b!"Name: f" ++ [10] ++ b!"A: b" ++ [13, 32, 10], by decide +kernel, by decide +kernel, ?_, ?_⟩, by decide +kernel, by decide +kernel⟩
  · exact .inl ⟨trivial, b!"Name: f" ++ [10] ++ b!"A: b" ++ [13, 32], rfl, rfl⟩
  · refine .inr ⟨?_, rfl⟩
    rintro ⟨_, u, hu⟩
    have h1 := congrArg List.getLast? (congrArg List.dropLast hu)
    have e : u ++ [10, 10] = (u ++ [10]) ++ [10] := by simp
    rw [e, List.dropLast_concat, List.getLast?_concat] at h1
    revert h1
    decide

/-! ## C51: panics -/

/-- C51: v1 verification panics only for one of the listed reasons. (That it can panic at all is `C51_panic_witnesses`; for
    the panics of the two parsers see C41 and C49.) -/
theorem C51_panic_causes_partial (env : Env1) (ord : Ord1) (z : Zip1) (hasBlock : Bool) (minSdk maxSdk : Int) (p : Panic)
    (h : verifySchemeV1 env ord z hasBlock minSdk maxSdk = .error p) : V1PanicCause env z minSdk :=
  verifySchemeV1_error h

/-- C51 for `ExtractCerts`. -/
theorem C51_extract_panic_causes_partial (env : Env1) (ord : Ord1) (z : Zip1) (minSdk maxSdk : Int) (p : Panic)
    (h : extractCertsV1 env ord z minSdk maxSdk = .error p) : V1PanicCause env z minSdk :=
  extractCertsV1_error h

namespace Toy

/-- A signature block with other algorithm identifiers. -/
def p7Alg (d e : List Nat) (sf : Bytes) : P7 :=
  { p7Of 7 sf with signers := (p7Of 7 sf).signers.map (fun i => { i with digestAlg := d, encAlg := e }) }

/-- The example archive with two more signature files. -/
def exZip2 (extraA extraB : Bytes) : List ZFile :=
  exFiles.map (fun p => file p.1 p.2) ++
    [file (b!"META-INF/MANIFEST.MF") (mfOf exFiles), file (b!"META-INF/A.SF") (sfOf extraA exFiles), file (b!"META-INF/A.RSA") [4, 1, 0],
     file (b!"META-INF/B.SF") (sfOf extraB exFiles), file (b!"META-INF/B.RSA") [4, 1, 1]]

/-- The example archive with another signature block file. -/
def exZipBlock (raw : Bytes) : List ZFile :=
  exFiles.map (fun p => file p.1 p.2) ++
    [file (b!"META-INF/MANIFEST.MF") (mfOf exFiles), file (b!"META-INF/A.SF") (sfOf [] exFiles), file (b!"META-INF/A.RSA") raw]

/-- The example archive with another manifest. -/
def exZipMf (raw : Bytes) : List ZFile :=
  exFiles.map (fun p => file p.1 p.2) ++
    [file (b!"META-INF/MANIFEST.MF") raw, file (b!"META-INF/A.SF") (sfOf [] exFiles), file (b!"META-INF/A.RSA") [4, 1, 0]]

end Toy

/-- C51: each of the listed reasons occurs: an unknown pair of algorithm identifiers, DSA with an RSA key, a truncated
    signature block, a manifest that ends with a colon. -/
theorem C51_panic_witnesses :
    (∃ p, verifySchemeV1 (Toy.env1 [Toy.p7Alg [1, 2] [3, 4] (Toy.sfOf [] Toy.exFiles)]) Toy.ord Toy.exZip false 24 30 = .error p) ∧
    (∃ p, verifySchemeV1 (Toy.env1 [Toy.p7Alg [1,3,14,3,2,26] [1,2,840,10040,4,1] (Toy.sfOf [] Toy.exFiles)]) Toy.ord Toy.exZip false 24 30 = .error p) ∧
    (∃ p, verifySchemeV1 (Toy.jarEnv [] Toy.exFiles) Toy.ord (Toy.zip1 (Toy.exZipBlock [48]) (by decide +kernel)) false 24 30 = .error p) ∧
    (∃ p, verifySchemeV1 (Toy.jarEnv [] Toy.exFiles) Toy.ord (Toy.zip1 (Toy.exZipMf (b!"a:")) (by decide +kernel)) false 24 30 = .error p) :=
  ⟨Toy.of_summary1_panic (by decide +kernel), Toy.of_summary1_panic (by decide +kernel), Toy.of_summary1_panic (by decide +kernel),
    Toy.of_summary1_panic (by decide +kernel)⟩

/-- C39, the limit of order independence: whether the failure is an error or a panic, and which error it is, does depend on
    the enumeration order. -/
theorem C39_panic_or_error_witness :
    (∃ c, verifySchemeV1 (Toy.env1 [Toy.p7Of 7 (Toy.sfOf (Toy.signedAttrText (b!"2")) Toy.exFiles), Toy.p7Alg [1, 2] [3, 4] []]) Toy.ord
      (Toy.zip1 (Toy.exZip2 (Toy.signedAttrText (b!"2")) []) (by decide +kernel)) false 24 30 = .ok (c, some .downgrade)) ∧
    (∃ p, verifySchemeV1 (Toy.env1 [Toy.p7Of 7 (Toy.sfOf (Toy.signedAttrText (b!"2")) Toy.exFiles), Toy.p7Alg [1, 2] [3, 4] []]) Toy.ordRev
      (Toy.zip1 (Toy.exZip2 (Toy.signedAttrText (b!"2")) []) (by decide +kernel)) false 24 30 = .error p) := by
  refine ⟨?_, Toy.of_summary1_panic (by decide +kernel)⟩
  obtain ⟨c, h, _⟩ := Toy.of_summary1 (r := verifySchemeV1 (Toy.env1 [Toy.p7Of 7 (Toy.sfOf (Toy.signedAttrText (b!"2")) Toy.exFiles),
      Toy.p7Alg [1, 2] [3, 4] []]) Toy.ord (Toy.zip1 (Toy.exZip2 (Toy.signedAttrText (b!"2")) []) (by decide +kernel)) false 24 30)
    (e := some .downgrade) (l := [[[0xC0, 1, 7]]]) (by decide +kernel)
  exact ⟨c, h⟩

namespace Toy

/-- Only the signatures are enumerated in the opposite order. -/
def ordRevSigs : Ord1 := { ord with sigs := List.reverse, sigs_perm := fun l => l.reverse_perm }

end Toy

/-- C39 with two signers: both orders are accepted, and the chains are reported in the order of enumeration. -/
theorem C39_example :
    (∃ c, verifySchemeV1 (Toy.env1 [Toy.p7Of 7 (Toy.sfOf [] Toy.exFiles), Toy.p7Of 8 (Toy.sfOf [] Toy.exFiles)]) Toy.ord
      (Toy.zip1 (Toy.exZip2 [] []) (by decide +kernel)) false 24 30 = .ok (c, none) ∧
      c.map (fun ch => ch.map Cert.raw) = [[[0xC0, 1, 7]], [[0xC0, 1, 8]]]) ∧
    (∃ c, verifySchemeV1 (Toy.env1 [Toy.p7Of 7 (Toy.sfOf [] Toy.exFiles), Toy.p7Of 8 (Toy.sfOf [] Toy.exFiles)]) Toy.ordRevSigs
      (Toy.zip1 (Toy.exZip2 [] []) (by decide +kernel)) false 24 30 = .ok (c, none) ∧
      c.map (fun ch => ch.map Cert.raw) = [[[0xC0, 1, 8]], [[0xC0, 1, 7]]]) :=
  ⟨Toy.of_summary1 (by decide +kernel), Toy.of_summary1 (by decide +kernel)⟩

end Apk
