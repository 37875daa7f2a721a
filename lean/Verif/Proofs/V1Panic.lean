import Verif.Proofs.V1Chains
/-! # Panics of the v1 verifier -/
namespace Apk

theorem p7Attempts_error {env : Env1} {as : List (Option Bytes)} {p : Panic} (h : p7Attempts env as = .error p) :
    ∃ raw, some raw ∈ as ∧ ber2der raw = .error p := by
  induction as with
  | nil => cases h
  | cons a as ih =>
    cases a with
    | none => obtain ⟨r, h1, h2⟩ := ih h; exact ⟨r, List.mem_cons_of_mem _ h1, h2⟩
    | some raw =>
      simp only [p7Attempts] at h
      split at h
      · rename_i p' hp
        cases h
        unfold p7Parse at hp
        split at hp
        · cases hp
        split at hp
        · rename_i hb; cases hp; exact ⟨raw, List.mem_cons_self, hb⟩
        · cases hp
        · cases hp
      · obtain ⟨r, h1, h2⟩ := ih h; exact ⟨r, List.mem_cons_of_mem _ h1, h2⟩
      · cases h

theorem loadBlock_error {env : Env1} {f : ZFile} {p : Panic} (h : loadBlock env f = .error p) : ∃ raw, Copy f raw ∧ ber2der raw = .error p := by
  unfold loadBlock at h
  split at h
  · rename_i ho
    obtain ⟨r, h1, h2⟩ := p7Attempts_error h
    exact ⟨r, ⟨ho, h1⟩, h2⟩
  · cases h

theorem parseAttempts_error {wc : Bool} {as : List (Option Bytes)} {e : ME} {p : Panic} (h : parseAttempts wc as e = .error p) :
    ∃ d, some d ∈ as ∧ parseManifestData wc d = .error p := by
  induction as generalizing e with
  | nil => cases h
  | cons a as ih =>
    cases a with
    | none => obtain ⟨d, h1, h2⟩ := ih h; exact ⟨d, List.mem_cons_of_mem _ h1, h2⟩
    | some raw =>
      simp only [parseAttempts] at h
      split at h
      · rename_i hp; cases h; exact ⟨raw, List.mem_cons_self, hp⟩
      · obtain ⟨d, h1, h2⟩ := ih h; exact ⟨d, List.mem_cons_of_mem _ h1, h2⟩
      · cases h

theorem parseManifest_error {f : ZFile} {wc : Bool} {p : Panic} (h : parseManifest f wc = .error p) :
    ∃ d, Copy f d ∧ parseManifestData wc d = .error p := by
  unfold parseManifest at h
  split at h
  · rename_i ho
    obtain ⟨d, h1, h2⟩ := parseAttempts_error h
    exact ⟨d, ⟨ho, h1⟩, h2⟩
  · cases h

theorem scanFiles_error {fs : List ZFile} {s : Scan} {p : Panic} (h : scanFiles fs s = .error p) :
    ∃ f ∈ fs, ∃ d wc, Copy f d ∧ parseManifestData wc d = .error p := by
  induction fs generalizing s with
  | nil => cases h
  | cons f fs ih =>
    have next : ∀ {s : Scan}, scanFiles fs s = .error p → ∃ g ∈ f :: fs, ∃ d wc, Copy g d ∧ parseManifestData wc d = .error p := by
      intro s hs
      obtain ⟨g, hg, h'⟩ := ih hs
      exact ⟨g, List.mem_cons_of_mem _ hg, h'⟩
    simp only [scanFiles] at h
    split at h
    · exact next h
    split at h
    · split at h
      · cases h
      split at h
      · rename_i hp
        cases h
        obtain ⟨d, h1, h2⟩ := parseManifest_error hp
        exact ⟨f, List.mem_cons_self, d, true, h1, h2⟩
      · cases h
      · exact next h
    split at h
    · exact next h
    split at h
    · split at h
      · exact next h
      · exact next h
    · exact next h

theorem mget_mdel_mem {sfs : List (Bytes × ZFile)} {k : Bytes} {p : Bytes × ZFile} (h : p ∈ mdel sfs k) : p ∈ sfs := by
  unfold mdel at h
  exact (List.mem_filter.1 h).1

theorem loadBlocks_error {env : Env1} {z : Zip1} {minSdk : Int} {blocks : List ZFile} {sfs : List (Bytes × ZFile)} {sigs : List (Bytes × Sig1)}
    {p : Panic} (hb : ∀ f ∈ blocks, f ∈ z.zip.ordered) (hs : ∀ q ∈ sfs, q.2 ∈ z.zip.ordered)
    (h : loadBlocks env blocks sfs sigs = .error p) : V1PanicCause env z minSdk := by
  induction blocks generalizing sfs sigs with
  | nil => cases h
  | cons f fs ih =>
    have hb' : ∀ g ∈ fs, g ∈ z.zip.ordered := fun g hg => hb g (List.mem_cons_of_mem _ hg)
    unfold loadBlocks at h
    dsimp only at h
    split at h
    · exact ih hb' hs h
    rename_i sf hsf
    split at h
    · rename_i hl
      obtain ⟨raw, h1, h2⟩ := loadBlock_error hl
      exact .block f raw _ (hb f List.mem_cons_self) h1 h2
    · cases h
    split at h
    · rename_i hm
      obtain ⟨d, h1, h2⟩ := parseManifest_error hm
      exact .manifest sf d false _ (hs _ (mget_mem hsf)) h1 h2
    · exact ih hb' hs h
    · exact ih hb' (fun q hq => hs q (mget_mdel_mem hq)) h

theorem checkSignature1_error {env : Env1} {cert : Cert} {algo : SigAlg} {d sig : Bytes} {p : Panic}
    (h : checkSignature1 env cert algo d sig = .error p) :
    (algo = .dsaSha1 ∨ algo = .dsaSha224 ∨ algo = .dsaSha256) ∧ cert.key.kind ≠ .dsa := by
  have dsa : ∀ {x s : Bytes}, checkDsa env cert x s = .error p → cert.key.kind ≠ .dsa := by
    intro x s hx
    unfold checkDsa at hx
    split at hx
    · assumption
    · split at hx <;> cases hx
  unfold checkSignature1 at h
  dsimp only at h
  split at h
  · cases h
  · cases h
  · exact ⟨.inl rfl, dsa h⟩
  · exact ⟨.inr (.inl rfl), dsa h⟩
  · exact ⟨.inr (.inr rfl), dsa h⟩
  · cases h
  · cases h

theorem mget_none_not_mem {κ ν : Type} [DecidableEq κ] {m : List (κ × ν)} {k : κ} (h : mget m k = none) (v : ν) : (k, v) ∉ m := by
  intro hm
  unfold mget at h
  cases hf : m.find? (fun p => decide (p.1 = k)) with
  | none =>
    rw [List.find?_eq_none] at hf
    have := hf _ hm
    simp at this
  | some p => rw [hf] at h; cases h

theorem signerLoop_error {env : Env1} {p7 : P7} {sf : Bytes} {maxSdk : Int} {infos : List P7Signer} {first : Option Cert} {p : Panic}
    (h : signerLoop env p7 sf maxSdk infos first = .error p) :
    ∃ info ∈ infos, (∀ a, ¬ JarAlgIds info.digestAlg info.encAlg a) ∨
      ∃ cert ∈ p7.certs, ∃ a, JarAlgIds info.digestAlg info.encAlg a ∧ (a = .dsaSha1 ∨ a = .dsaSha224 ∨ a = .dsaSha256) ∧
        cert.key.kind ≠ .dsa := by
  induction infos generalizing first with
  | nil => cases h
  | cons info infos ih =>
    have next : ∀ {first : Option Cert}, signerLoop env p7 sf maxSdk infos first = .error p →
        ∃ i ∈ info :: infos, (∀ a, ¬ JarAlgIds i.digestAlg i.encAlg a) ∨
        ∃ cert ∈ p7.certs, ∃ a, JarAlgIds i.digestAlg i.encAlg a ∧ (a = .dsaSha1 ∨ a = .dsaSha224 ∨ a = .dsaSha256) ∧
          cert.key.kind ≠ .dsa := by
      intro first hs
      obtain ⟨i, hi, h'⟩ := ih hs
      exact ⟨i, List.mem_cons_of_mem _ hi, h'⟩
    simp only [signerLoop] at h
    split at h
    · cases h
    split at h
    · cases h
    rename_i cert hcert
    split at h
    · cases h
    split at h
    · rename_i hn
      exact ⟨info, List.mem_cons_self, .inl (fun a h => mget_none_not_mem hn a (jarAlgIds_complete h))⟩
    rename_i a ha
    split at h
    · cases h
    · exact next h
    split at h
    · rename_i hc
      obtain ⟨h1, h2⟩ := checkSignature1_error hc
      exact ⟨info, List.mem_cons_self, .inr ⟨cert, (certFor_some hcert).1, a, oidToAlgo_iff.1 ha, h1, h2⟩⟩
    · exact next h
    · exact next h

theorem verifySignature1_error {env : Env1} {z : Zip1} {p7 : P7} {sm : Manifest} {sf : Bytes} {minSdk maxSdk : Int} {p : Panic}
    (hs : Signature env z p7 sm) (h : verifySignature1 env p7 sf minSdk maxSdk = .error p) : V1PanicCause env z minSdk := by
  unfold verifySignature1 at h
  split at h
  · cases h
  split at h
  · rename_i hl
    obtain ⟨info, hi, h1 | ⟨cert, h1, a, h2, h3, h4⟩⟩ := signerLoop_error hl
    · exact .algorithm p7 sm info hs hi h1
    · exact .dsaKey p7 sm info cert a hs hi h1 h2 h3 h4
  · cases h
  · cases h
  · cases h

theorem verifyLoop_error {env : Env1} {ord : Ord1} {z : Zip1} {mf : Manifest} {hasBlock : Bool} {minSdk maxSdk : Int} {ss : List Ready} {st : VState}
    {p : Panic} (hs : ∀ r ∈ ss, Signature env z r.p7 r.sm) (h : verifyLoop env ord mf hasBlock minSdk maxSdk ss st = .error p) :
    V1PanicCause env z minSdk := by
  induction ss generalizing st with
  | nil => cases h
  | cons s ss ih =>
    have hs' : ∀ r ∈ ss, Signature env z r.p7 r.sm := fun r hr => hs r (List.mem_cons_of_mem _ hr)
    rw [verifyLoop_cons] at h
    split at h
    · rename_i hj
      unfold judge at hj
      split at hj
      · rename_i hv; exact verifySignature1_error (hs s List.mem_cons_self) hv
      · cases hj
      split at hj
      · cases hj
      split at hj
      · cases hj
      split at hj
      · cases hj
      split at hj <;> cases hj
    · cases h
    · exact ih hs' h

theorem coverLoop_no_panic {env : Env1} {ord : Ord1} {z : Zip1} {mf : Manifest} {valid : List Valid} {minSdk maxSdk : Int}
    {chain0 : List (List Cert)} {paths : List Bytes} {set : Option (List (List Cert))} {p : Panic}
    (hp : ∀ e ∈ mf.entries, (z.zip.file e.1).isSome = true) :
    coverLoop env ord z mf valid minSdk maxSdk chain0 paths set ≠ .error p := by
  induction paths generalizing set with
  | nil => intro h; cases h
  | cons k ps ih =>
    intro h
    simp only [coverLoop] at h
    split at h
    · cases h
    rename_i as has
    split at h
    · rename_i hf
      have := hp _ (mget_mem has)
      dsimp only at this
      rw [hf] at this
      cases this
    split at h
    · cases h
    split at h
    · cases h
    split at h
    · exact ih h
    split at h
    · exact ih h
    · cases h

theorem newSchemeV1_error {env : Env1} {z : Zip1} {minSdk : Int} {p : Panic} (h : newSchemeV1 env z = .error p) : V1PanicCause env z minSdk := by
  unfold newSchemeV1 at h
  split at h
  · rename_i hs
    obtain ⟨f, hf, d, wc, h1, h2⟩ := scanFiles_error hs
    exact .manifest f d wc _ hf h1 h2
  · cases h
  rename_i s hs
  have hscan : ScanOk z.zip.ordered s := scanFiles_ok (fun f hf => hf)
    ⟨(fun m hm => by cases hm), (fun f hf => by cases hf), (fun p hp => by cases hp)⟩ hs
  split at h
  · rename_i hl
    exact loadBlocks_error (fun f hf => (hscan.blocks f hf).1) (fun q hq => (hscan.sfs q hq).1) hl
  · cases h
  split at h
  · cases h
  split at h <;> cases h

theorem verifySchemeV1_error {env : Env1} {ord : Ord1} {z : Zip1} {hasBlock : Bool} {minSdk maxSdk : Int} {p : Panic}
    (h : verifySchemeV1 env ord z hasBlock minSdk maxSdk = .error p) : V1PanicCause env z minSdk := by
  unfold verifySchemeV1 at h
  split at h
  · rename_i hn
    exact newSchemeV1_error hn
  · cases h
  · rename_i mf sigs hn
    obtain ⟨_, hsig, _, _⟩ := newSchemeV1_sound hn
    unfold verifyV1Loaded at h
    split at h
    · rename_i hl
      exact verifyLoop_error (fun r hr => hsig r ((ord.sigs_perm sigs).mem_iff.1 hr)) hl
    · cases h
    split at h
    · cases h
    split at h
    · cases h
    split at h
    · cases h
    unfold verifyMainManifest at h
    split at h
    · cases h
    · rename_i ha
      refine absurd h (coverLoop_no_panic ?_)
      intro e he
      cases hz : z.zip.file e.1 with
      | some _ => rfl
      | none => exact absurd (List.any_eq_true.2 ⟨e, (ord.mfEntries_perm _).mem_iff.2 he, by rw [hz]; rfl⟩) ha

theorem extractLoop_error {env : Env1} {z : Zip1} {minSdk maxSdk : Int} {ss : List Ready} {st : List (List Cert) × Bool}
    {p : Panic} (hs : ∀ r ∈ ss, Signature env z r.p7 r.sm) (h : extractLoop env minSdk maxSdk ss st = .error p) :
    V1PanicCause env z minSdk := by
  induction ss generalizing st with
  | nil => cases h
  | cons s ss ih =>
    simp only [extractLoop] at h
    split at h
    · rename_i hv; exact verifySignature1_error (hs s List.mem_cons_self) hv
    · exact ih (fun r hr => hs r (List.mem_cons_of_mem _ hr)) h

theorem extractCertsV1_error {env : Env1} {ord : Ord1} {z : Zip1} {minSdk maxSdk : Int} {p : Panic}
    (h : extractCertsV1 env ord z minSdk maxSdk = .error p) : V1PanicCause env z minSdk := by
  unfold extractCertsV1 at h
  split at h
  · rename_i hn; exact newSchemeV1_error hn
  · cases h
  · rename_i mf sigs hn
    obtain ⟨_, hsig, _, _⟩ := newSchemeV1_sound hn
    split at h
    · rename_i hl
      exact extractLoop_error (fun r hr => hsig r ((ord.sigs_perm sigs).mem_iff.1 hr)) hl
    · cases h

end Apk
