import Verif.Proofs.ChainFind
import Verif.Props.CertFull
import Verif.Props.Keys
/-! # C83: certificate chains and host names -/
namespace Apk
open Spec

theorem rootsAre_match {env : ChainEnv} {opts : VerifyOptions} {roots : List CertFull} (h : RootsAre env opts roots) :
    opts.rootList env = some roots := by
  unfold VerifyOptions.rootList
  rcases h with h | ⟨h, h'⟩
  · rw [h]
  · rw [h]; exact h'

/-- Every chain that is returned is a chain of usable certificates from the certificate to a root, each signed by the next one and good for one
    of the purposes that were asked for; the certificate itself is usable, and one for the host. A certificate that is a root is a chain by itself. -/
theorem C83_chains_sound {env : ChainEnv} {opts : VerifyOptions} {c : CertFull} {roots : List CertFull} {chains : List (List CertFull)}
    (hr : RootsAre env opts roots) (hdr : DistinctRaws roots) (hdi : DistinctRaws opts.intermediates) (hs : -1 ∉ opts.keyUsages)
    (h : verifyChain env opts c = some chains) :
    chains ≠ [] ∧ c.ext.unhandled = [] ∧ Usable env opts c ∧ (opts.dnsName ≠ [] → ForHost env c opts.dnsName) ∧
    ∀ ch ∈ chains, GoodFor opts ch ∧ ((ch = [c] ∧ ∃ r ∈ roots, r.base.raw = c.base.raw ∧ r.rawSubject = c.rawSubject) ∨
      ChainTo env opts opts.intermediates roots c ch) := by
  unfold verifyChain at h
  rw [rootsAre_match hr] at h
  have h1 : ¬ c.base.raw.length = 0 := fun hx => by rw [if_pos hx] at h; cases h
  rw [if_neg h1] at h
  have h2 : ¬ (opts.intermediates.any (fun x => decide (x.base.raw.length = 0)) = true) := fun hx => by rw [if_pos hx] at h; cases h
  rw [if_neg h2] at h
  have h3 : ¬ (c.ext.unhandled.length > 0) := fun hx => by rw [if_pos hx] at h; cases h
  rw [if_neg h3] at h
  simp only at h
  have h4 : ¬ ((!certIsValid env opts .leaf [] c) = true) := fun hx => by rw [if_pos hx] at h; cases h
  rw [if_neg h4] at h
  have h5 : ¬ ((decide (opts.dnsName.length > 0) && !verifyHostname env c opts.dnsName) = true) := fun hx => by rw [if_pos hx] at h; cases h
  rw [if_neg h5] at h
  have hv : certIsValid env opts .leaf [] c = true := by simpa using h4
  have hpool := poolOk_of roots
  have filt : ∀ cands : List (List CertFull), cands ≠ [] → (∀ ch ∈ cands, ch ≠ []) → usageFilter opts.keyUsages cands = some chains →
      chains ≠ [] ∧ ∀ ch ∈ chains, GoodFor opts ch ∧ ch ∈ cands := by
    intro cands hn hne hf
    obtain ⟨good, g1, g2, g3⟩ := usageFilter_eq hs hne hn
    rw [g3] at hf
    by_cases hg : good = []
    · rw [if_pos hg] at hf; cases hf
    · rw [if_neg hg] at hf
      obtain rfl := Option.some.inj hf
      exact ⟨hg, fun ch hch => ⟨(g2 ch (g1.mem hch)).1 hch, g1.mem hch⟩⟩
  have rest : chains ≠ [] ∧ ∀ ch ∈ chains, GoodFor opts ch ∧ ((ch = [c] ∧ ∃ r ∈ roots, r.base.raw = c.base.raw ∧ r.rawSubject = c.rawSubject) ∨
      ChainTo env opts opts.intermediates roots c ch) := by
    by_cases hc : (CertPool.of roots).contains c = true
    · rw [if_pos hc] at h
      obtain ⟨f1, f2⟩ := filt [[c]] (by simp) (by simp) h
      refine ⟨f1, fun ch hch => ⟨(f2 ch hch).1, .inl ⟨List.mem_singleton.1 (f2 ch hch).2, ?_⟩⟩⟩
      obtain ⟨x, hx, hx1, hx2⟩ := (contains_iff hpool c).1 hc
      exact ⟨x, hpool.sub x hx, hx1, hx2⟩
    · rw [if_neg hc] at h
      cases hb : buildChains env opts (CertPool.of roots) (CertPool.of opts.intermediates) (opts.intermediates.length + 1) [] c [c] with
      | none => rw [hb] at h; cases h
      | some r =>
        obtain ⟨cands, cache⟩ := r
        rw [hb] at h
        simp only at h
        have h6 : ¬ cands.length = 0 := fun hx => by rw [if_pos hx] at h; cases h
        rw [if_neg h6] at h
        obtain ⟨b1, _⟩ := buildChains_sound hpool (poolOk_of opts.intermediates) hdr hdi _ _ _ _ _ _ .leaf rfl (fun i l h => by cases h) hb
        have hne : ∀ ch ∈ cands, ch ≠ [] := by
          intro ch hch
          obtain ⟨p, r, _, _, rfl⟩ := b1 ch hch
          simp
        obtain ⟨f1, f2⟩ := filt cands (fun hx => h6 (by rw [hx]; rfl)) hne h
        exact ⟨f1, fun ch hch => ⟨(f2 ch hch).1, .inr (b1 ch (f2 ch hch).2)⟩⟩
  refine ⟨rest.1, List.length_eq_zero_iff.1 (by omega), (isValid_iff.1 hv).2.1, fun hd => ?_, rest.2⟩
  have hpos : opts.dnsName.length > 0 := Nat.pos_of_ne_zero (fun hx => hd (List.length_eq_zero_iff.1 hx))
  refine (verifyHostname_iff ..).1 ?_
  cases hx : verifyHostname env c opts.dnsName with
  | true => rfl
  | false => exact absurd (by simp [hx, hpos]) h5

/-- The search ends: the depth given to `buildChains` by `verifyChain` is never used up. -/
theorem C83_terminates (env : ChainEnv) (opts : VerifyOptions) (c : CertFull) (roots : List CertFull) :
    ∃ r, buildChains env opts (CertPool.of roots) (CertPool.of opts.intermediates) (opts.intermediates.length + 1) [] c [c] = some r := by
  refine buildChains_total _ _ _ _ ?_
  have hlen : (CertPool.of opts.intermediates).certs.length ≤ opts.intermediates.length := by
    have key : ∀ (l : List CertFull) (s : CertPool), (l.foldl CertPool.add s).certs.length ≤ s.certs.length + l.length := by
      intro l
      induction l with
      | nil => intro s; exact Nat.le_refl _
      | cons x l ih =>
        intro s
        have h1 := ih (s.add x)
        have h2 : (s.add x).certs.length ≤ s.certs.length + 1 := by
          unfold CertPool.add
          split
          · omega
          · simp
        rw [List.foldl_cons, List.length_cons]
        omega
    have := key opts.intermediates {}
    simp only [List.length_nil, Nat.zero_add] at this
    exact this
  exact Nat.lt_succ_of_le (Nat.le_trans List.countP_le_length hlen)

/-- A name or an address is accepted for a certificate exactly if the certificate is one for it. -/
theorem C83_host_iff (env : ChainEnv) (c : CertFull) (h : Bytes) : verifyHostname env c h = true ↔ ForHost env c h := verifyHostname_iff env c h

/-- A signature of one certificate by another is accepted exactly if the other may sign certificates and has signed it. -/
theorem C83_signature_iff (env : ChainEnv) (c p : CertFull) : checkSigFrom env c p = true ↔ SignedBy env c p := checkSigFrom_iff env c p

/-- Certificates that were parsed and have the same bytes are the same. -/
theorem C83_parsed_same {ce : CertEnv} {l : List CertFull} (h : ∀ x ∈ l, ∃ b, FullCertificateIs ce b x) : DistinctRaws l := by
  intro x hx y hy he
  obtain ⟨b, hb⟩ := h x hx
  obtain ⟨b', hb'⟩ := h y hy
  have e : ∀ {b : Bytes} {x : CertFull}, FullCertificateIs ce b x → x.base.raw = b := by
    intro b x h
    exact (parseCert509_inv (parseCert509_iff.2 h.1)).1
  rw [e hb, e hb'] at he
  subst he
  exact C80_certificate_unique hb hb'

/-- A certificate that is a root is accepted exactly if it can be used, is one for the host and is good for one of the purposes. -/
theorem C83_root_iff {env : ChainEnv} {opts : VerifyOptions} {c : CertFull} {roots : List CertFull}
    (hr : RootsAre env opts roots) (hs : -1 ∉ opts.keyUsages) (hraw : c.base.raw ≠ []) (hraws : ∀ x ∈ opts.intermediates, x.base.raw ≠ [])
    (hc : ∃ r ∈ roots, r.base.raw = c.base.raw ∧ r.rawSubject = c.rawSubject) (chains : List (List CertFull)) :
    verifyChain env opts c = some chains ↔ chains = [[c]] ∧ c.ext.unhandled = [] ∧ Usable env opts c ∧
      (opts.dnsName ≠ [] → ForHost env c opts.dnsName) ∧ GoodFor opts [c] := by
  have hpool := poolOk_of roots
  have hcon : (CertPool.of roots).contains c = true := by
    obtain ⟨r, h1, h2, h3⟩ := hc
    obtain ⟨y, g1, g2, g3⟩ := hpool.cover r h1
    exact (contains_iff hpool c).2 ⟨y, g1, g2.trans h2, g3.trans h3⟩
  obtain ⟨good, g1, g2, g3⟩ := usageFilter_eq (cands := [[c]]) hs (by simp) (by simp)
  have hg : good = [] ∨ good = [[c]] := by
    cases good with
    | nil => exact .inl rfl
    | cons x l =>
      right
      have := g1.length_le
      simp only [List.length_cons, List.length_nil] at this
      have hl : l = [] := List.length_eq_zero_iff.1 (by omega)
      subst hl
      rw [List.mem_singleton.1 (g1.mem (List.mem_cons_self ..))]
  have hgood : (if good = [] then none else some good) = some chains ↔ chains = [[c]] ∧ GoodFor opts [c] := by
    have hm := g2 [c] (List.mem_singleton.2 rfl)
    rcases hg with rfl | rfl
    · rw [if_pos rfl]
      refine ⟨(fun h => by cases h), fun h => ?_⟩
      have := hm.2 h.2
      cases this
    · rw [if_neg (by simp), Option.some.injEq]
      exact ⟨fun h => ⟨h.symm, hm.1 (List.mem_singleton.2 rfl)⟩, fun h => h.1.symm⟩
  unfold verifyChain
  rw [rootsAre_match hr, if_neg (fun h => hraw (List.length_eq_zero_iff.1 h)), if_neg]
  case hnc =>
    intro h
    obtain ⟨x, hx, he⟩ := List.any_eq_true.1 h
    exact hraws x hx (List.length_eq_zero_iff.1 (by simpa using he))
  by_cases h3 : c.ext.unhandled.length > 0
  · rw [if_pos h3]
    refine ⟨(fun h => by cases h), fun h => ?_⟩
    rw [h.2.1] at h3
    exact absurd h3 (by simp)
  rw [if_neg h3]
  have hun : c.ext.unhandled = [] := List.length_eq_zero_iff.1 (by omega)
  simp only
  rw [if_pos hcon, g3]
  have hv : certIsValid env opts .leaf [] c = true ↔ Usable env opts c := by
    rw [isValid_iff]
    refine ⟨fun h => h.2.1, fun h => ⟨(fun x hx => by cases hx), h, (fun hx => by cases hx), fun _ _ => ?_⟩⟩
    simp only [List.length_nil]
    omega
  by_cases h4 : certIsValid env opts .leaf [] c = true
  · rw [if_neg (by rw [h4]; simp)]
    by_cases h5 : opts.dnsName = [] ∨ verifyHostname env c opts.dnsName = true
    · rw [if_neg (by rcases h5 with h5 | h5 <;> simp [h5]), hgood]
      refine ⟨fun h => ⟨h.1, hun, hv.1 h4, fun hd => (verifyHostname_iff ..).1 (h5.resolve_left hd), h.2⟩, fun h => ⟨h.1, h.2.2.2.2⟩⟩
    · rw [if_pos]
      · refine ⟨(fun h => by cases h), fun h => ?_⟩
        have hd : opts.dnsName ≠ [] := fun hd => h5 (.inl hd)
        exact absurd (.inr ((verifyHostname_iff ..).2 (h.2.2.2.1 hd))) h5
      · rw [not_or] at h5
        have hpos : opts.dnsName.length > 0 := Nat.pos_of_ne_zero (fun hx => h5.1 (List.length_eq_zero_iff.1 hx))
        simp [hpos, h5.2]
  · rw [if_pos (by simpa using h4)]
    exact ⟨(fun h => by cases h), fun h => absurd (hv.2 h.2.2.1) h4⟩

/-- Without limits on the length of paths, a certificate with a chain is accepted. What is missing: with such limits chains can be missed
    (`C83_chains_missed`); and a chain that is found need not be good for the purposes that were asked for, while one that is not found is. -/
theorem C83_complete_partial {env : ChainEnv} {opts : VerifyOptions} {c : CertFull} {roots : List CertFull}
    (hr : RootsAre env opts roots) (hdr : DistinctRaws roots) (hdi : DistinctRaws opts.intermediates)
    (hdl : ∀ r ∈ roots, c.base.raw ≠ r.base.raw) (hdis : ∀ x ∈ opts.intermediates, ∀ r ∈ roots, x.base.raw ≠ r.base.raw)
    (hlr : ∀ r ∈ roots, r.ext.basicConstraintsValid = true → r.ext.maxPathLen < 0)
    (hli : ∀ m ∈ opts.intermediates, m.ext.basicConstraintsValid = true → m.ext.maxPathLen < 0)
    (hraw : c.base.raw ≠ []) (hraws : ∀ x ∈ opts.intermediates, x.base.raw ≠ []) (hany : 0 ∈ opts.keyUsages)
    (hun : c.ext.unhandled = []) (hu : Usable env opts c) (hh : opts.dnsName ≠ [] → ForHost env c opts.dnsName)
    {ch : List CertFull} (hch : ChainTo env opts opts.intermediates roots c ch) : ∃ chains, verifyChain env opts c = some chains := by
  have hpool := poolOk_of roots
  have hcon : ¬ (CertPool.of roots).contains c = true := by
    intro h
    obtain ⟨x, hx, hx1, _⟩ := (contains_iff hpool c).1 h
    exact hdl x (hpool.sub x hx) hx1.symm
  obtain ⟨⟨cands, cache⟩, hb⟩ := C83_terminates env opts c roots
  have hne : cands ≠ [] := by
    rintro rfl
    exact no_chain hpool (poolOk_of opts.intermediates) hdr hdi hlr hli hdl hdis hb ch hch
  unfold verifyChain
  rw [rootsAre_match hr, if_neg (fun h => hraw (List.length_eq_zero_iff.1 h)), if_neg]
  case hnc =>
    intro h
    obtain ⟨x, hx, he⟩ := List.any_eq_true.1 h
    exact hraws x hx (List.length_eq_zero_iff.1 (by simpa using he))
  rw [if_neg (by rw [hun]; simp)]
  simp only
  have hv : certIsValid env opts .leaf [] c = true := by
    refine isValid_iff.2 ⟨(fun x hx => by cases hx), hu, (fun hx => by cases hx), fun _ _ => ?_⟩
    simp only [List.length_nil]
    omega
  rw [if_neg (by rw [hv]; simp), if_neg, if_neg hcon, hb]
  case hnc =>
    by_cases hd : opts.dnsName = []
    · simp [hd]
    · rw [(verifyHostname_iff ..).2 (hh hd)]; simp
  simp only
  rw [if_neg (fun h => hne (List.length_eq_zero_iff.1 h))]
  refine ⟨cands, ?_⟩
  unfold usageFilter
  simp only
  have hk : ¬ opts.keyUsages.length = 0 := fun h => by rw [List.length_eq_zero_iff.1 h] at hany; cases hany
  rw [if_neg hk, if_pos (List.any_eq_true.2 ⟨0, hany, by simp⟩)]

namespace Toy

/-- Signatures of one byte, the modulus of the key; names fold to themselves; no text is an address. -/
def chainEnv : ChainEnv where
  hash := fun _ => some id
  rsaPss := fun _ _ _ _ => false
  rsaPkcs1 := fun _ k _ s => match k with | .rsa n _ => decide (s = [UInt8.ofNat n.toNat]) | _ => false
  dsaVerify := fun _ _ _ _ => false
  ecdsaVerify := fun _ _ _ _ => false
  asn1RS := fun _ => none
  equalFold := fun a b => decide (a = b)
  parseIP := fun _ => none
  clock := 50
  systemRoots := none

/-- A certificate of version 3, valid from 0 to 100: its bytes, subject, issuer, key, the key that signed it, its extensions. -/
def chainCert (id subject issuer : UInt8) (key : Int) (signer : UInt8) (ext : ExtFields) : CertFull :=
  { base := { raw := [id], spki := [id], key := ⟨.rsa, 1, [id]⟩, sigAlg := 4, notBefore := 0, notAfter := 100 },
    key := .rsa key 3, keyAlgo := .rsa, rawTbs := [id], rawSubject := [subject], rawIssuer := [issuer], signature := [signer], version := 3,
    extensions := [], ext := ext }

/-- An authority without a limit. -/
def caExt : ExtFields := { basicConstraintsValid := true, isCA := true, maxPathLen := -1, keyUsage := 32 }

/-- The root; an authority below it that admits one more; an authority X certified by that one, and by itself; a certificate from X. -/
def chainRoot : CertFull := chainCert 1 1 1 11 11 caExt
def chainMid : CertFull := chainCert 2 2 1 12 11 { caExt with maxPathLen := 1 }
def chainX : CertFull := chainCert 3 3 2 13 12 caExt
def chainXSelf : CertFull := chainCert 4 3 3 13 13 caExt
def chainLeaf : CertFull := chainCert 5 5 3 14 13 { dnsNames := [b!"*.a.b"], extKeyUsage := [1] }
/-- A root without a limit for the authority in the middle. -/
def chainMidFree : CertFull := chainCert 2 2 1 12 11 caExt

def chainOpts (inters : List CertFull) : VerifyOptions := { intermediates := inters, roots := some [chainRoot] }

theorem same_mid : DistinctRaws [chainX, chainXSelf, chainMid] := by
  intro x hx y hy he
  simp only [List.mem_cons, List.not_mem_nil, or_false] at hx hy
  rcases hx with rfl | rfl | rfl <;> rcases hy with rfl | rfl | rfl <;> first | rfl | (exact absurd he (by decide))

theorem same_free : DistinctRaws [chainXSelf, chainX, chainMidFree] := by
  intro x hx y hy he
  simp only [List.mem_cons, List.not_mem_nil, or_false] at hx hy
  rcases hx with rfl | rfl | rfl <;> rcases hy with rfl | rfl | rfl <;> first | rfl | (exact absurd he (by decide))

theorem same_root : DistinctRaws [chainRoot] := by
  intro x hx y hy _
  rw [List.mem_singleton.1 hx, List.mem_singleton.1 hy]

/-- The raw bytes of the certificates of the chains that are found. -/
def chainRaws (env : ChainEnv) (opts : VerifyOptions) (c : CertFull) : Option (List (List Bytes)) :=
  (verifyChain env opts c).map (fun l => l.map (fun ch => ch.map (fun x => x.base.raw)))

end Toy
open Toy

/-- The hypotheses of `C83_chains_sound` are met, and its chain has four certificates. It is found twice: once above the self-signed certificate. -/
theorem C83_chain_example : ∃ chains, verifyChain chainEnv (chainOpts [chainX, chainXSelf, chainMid]) chainLeaf = some chains ∧
    chains.map (fun ch => ch.map (fun x => x.base.raw)) = [[[5], [3], [2], [1]], [[5], [3], [2], [1]]] ∧
    (∃ ch ∈ chains, GoodFor (chainOpts [chainX, chainXSelf, chainMid]) ch ∧
      ChainTo chainEnv (chainOpts [chainX, chainXSelf, chainMid]) [chainX, chainXSelf, chainMid] [chainRoot] chainLeaf ch) := by
  have h : chainRaws chainEnv (chainOpts [chainX, chainXSelf, chainMid]) chainLeaf = some [[[5], [3], [2], [1]], [[5], [3], [2], [1]]] := by decide +kernel
  unfold chainRaws at h
  obtain ⟨chains, h1, h2⟩ := Option.map_eq_some_iff.1 h
  refine ⟨chains, h1, h2, ?_⟩
  obtain ⟨g1, _, _, _, g2⟩ := C83_chains_sound (roots := [chainRoot]) (.inl rfl) same_root same_mid (by decide) h1
  obtain ⟨ch, hch⟩ := List.exists_mem_of_ne_nil _ g1
  obtain ⟨g3, g4⟩ := g2 ch hch
  refine ⟨ch, hch, g3, ?_⟩
  rcases g4 with ⟨rfl, _⟩ | g4
  · have := List.mem_map_of_mem (f := fun ch : List CertFull => ch.map (fun x => x.base.raw)) hch
    rw [h2] at this
    exact absurd this (by decide)
  · exact g4

/-- Not so (verify.go:383-389): whether a chain is found depends on the order of the intermediates. What is found above an authority is kept for
    later, and used for other paths to it: above the self-signed certificate of X the authority in the middle admits no more certificates,
    and this is taken for an answer for X without it. -/
theorem C83_chains_missed : ∃ (env : ChainEnv) (roots inters inters' : List CertFull) (c : CertFull) (ch : List CertFull), inters.Perm inters' ∧
    DistinctRaws roots ∧ DistinctRaws inters ∧
    ChainTo env { intermediates := inters, roots := some roots } inters roots c ch ∧ GoodFor { intermediates := inters, roots := some roots } ch ∧
    (verifyChain env { intermediates := inters, roots := some roots } c).isSome = true ∧
    verifyChain env { intermediates := inters', roots := some roots } c = none := by
  obtain ⟨chains, h1, _, ch, _, h3, h4⟩ := C83_chain_example
  refine ⟨chainEnv, [chainRoot], [chainX, chainXSelf, chainMid], [chainXSelf, chainX, chainMid], chainLeaf, ch, List.Perm.swap .., same_root, same_mid, h4, h3,
    congrArg Option.isSome h1, ?_⟩
  have h : chainRaws chainEnv (chainOpts [chainXSelf, chainX, chainMid]) chainLeaf = none := by decide +kernel
  unfold chainRaws at h
  exact Option.map_eq_none_iff.1 h

/-- Not so: the number −1 in the purposes that are asked for admits every chain (verify.go:510-516 uses it for purposes that are crossed out). -/
theorem C83_sentinel_accepts : ∃ (env : ChainEnv) (opts : VerifyOptions) (c : CertFull), (verifyChain env opts c).isSome = true ∧
    opts.keyUsages = [-1, 1] ∧ c.ext.extKeyUsage = [3] ∧ ¬ GoodFor opts [c] := by
  refine ⟨chainEnv, { roots := some [chainCert 1 1 1 11 11 { extKeyUsage := [3] }], keyUsages := [-1, 1] }, chainCert 1 1 1 11 11 { extKeyUsage := [3] },
    by decide +kernel, rfl, rfl, ?_⟩
  rintro (h | ⟨u, hu, h⟩)
  · exact absurd h (by decide)
  · have hc := h _ (List.mem_singleton.2 rfl)
    unfold AllowsUse at hc
    have e : (chainCert 1 1 1 11 11 { extKeyUsage := [3] }).ext.extKeyUsage = [3] := rfl
    rw [e] at hc
    have hu : u = -1 ∨ u = 1 := by
      have : u ∈ ([-1, 1] : List Int) := hu
      simpa using this
    rcases hc with ⟨h, _⟩ | h | ⟨k, hk, he⟩ | ⟨_, h | h⟩
    · cases h
    · exact absurd h (by decide)
    · obtain rfl := List.mem_singleton.1 hk
      omega
    · exact absurd h (by decide)
    · exact absurd h (by decide)

/-- Not so (x509.go:819-823): a certificate with one particular public key — that of an authority whose certificates lack a mark — is accepted from
    a signer that is not an authority. The exemption is looked up in the certificate that was signed, not in the signer's. -/
theorem C83_entrust_child : ∃ (env : ChainEnv) (c p : CertFull), SignedBy env c p ∧ c.base.spki = entrustBrokenSPKI ∧ p.base.spki ≠ entrustBrokenSPKI ∧
    p.ext.basicConstraintsValid = true ∧ p.ext.isCA = false ∧ ¬ SignedBy env { p with signature := c.signature } p := by
  let c : CertFull := { chainCert 5 5 3 14 13 {} with base := { (chainCert 5 5 3 14 13 {}).base with spki := entrustBrokenSPKI } }
  let p : CertFull := chainCert 4 3 3 13 13 { basicConstraintsValid := true }
  refine ⟨chainEnv, c, p, (checkSigFrom_iff ..).1 (by decide +kernel), rfl, (by decide), rfl, rfl, fun h => ?_⟩
  have := (h.authority (show ([4] : Bytes) ≠ entrustBrokenSPKI by decide)).2 rfl
  cases this

/-- Not so (verify.go:426-432): a star also stands for no letters at all. -/
theorem C83_star_for_nothing : ∃ (env : ChainEnv) (c : CertFull), ForHost env c (b!".a.b") ∧ ForHost env c (b!"x.a.b") ∧ ¬ ForHost env c (b!"x.y.a.b") ∧ ¬ ForHost env c (b!"a.b") := by
  refine ⟨chainEnv, { chainLeaf with extensions := [([2,5,29,17], false, [])] }, (C83_host_iff ..).1 (by decide +kernel), (C83_host_iff ..).1 (by decide +kernel), ?_, ?_⟩
  · intro h; exact absurd ((C83_host_iff ..).2 h) (by decide +kernel)
  · intro h; exact absurd ((C83_host_iff ..).2 h) (by decide +kernel)

/-- Not so (verify.go:220-232): with constraints on names, a chain is refused if no name is asked for. -/
theorem C83_constraints_need_name (env : ChainEnv) (opts : VerifyOptions) (c : CertFull) (h : opts.dnsName = []) (hp : c.ext.permitted ≠ [])
    (hn : ∀ k ∈ c.ext.permitted, k ≠ []) : ¬ Usable env opts c := by
  rintro ⟨_, h1, _⟩
  rcases h1 with h1 | ⟨k, hk, h1 | ⟨f, b, h2, h3, _⟩⟩
  · exact hp h1
  · exact hn k hk h1
  · rw [h] at h2
    obtain ⟨_, rfl⟩ := List.append_eq_nil_iff.1 h2.symm
    exact hn k hk (List.length_eq_zero_iff.1 h3.symm)

/-- The hypotheses of `C83_complete_partial` can be met: without the limit, the order does not matter. -/
theorem C83_complete_example : ∃ chains, verifyChain chainEnv { chainOpts [chainXSelf, chainX, chainMidFree] with keyUsages := [0] } chainLeaf = some chains := by
  refine C83_complete_partial (roots := [chainRoot]) (ch := [chainLeaf, chainX, chainMidFree, chainRoot]) (.inl rfl) same_root same_free ?_ ?_ ?_ ?_ (by decide) ?_ (by decide) rfl
    ?_ (fun h => absurd rfl h) ?_
  · intro r hr; obtain rfl := List.mem_singleton.1 hr; decide
  · intro x hx r hr
    obtain rfl := List.mem_singleton.1 hr
    simp only [chainOpts, List.mem_cons, List.not_mem_nil, or_false] at hx
    rcases hx with rfl | rfl | rfl <;> decide
  · intro r hr _; obtain rfl := List.mem_singleton.1 hr; decide
  · intro x hx _
    simp only [chainOpts, List.mem_cons, List.not_mem_nil, or_false] at hx
    rcases hx with rfl | rfl | rfl <;> decide
  · intro x hx
    simp only [chainOpts, List.mem_cons, List.not_mem_nil, or_false] at hx
    rcases hx with rfl | rfl | rfl <;> decide
  · exact (isValid_iff (role := .leaf) (cur := []).1 (by decide +kernel)).2.1
  · have sg : ∀ a b : CertFull, checkSigFrom chainEnv a b = true → SignedBy chainEnv a b := fun a b => (checkSigFrom_iff ..).1
    have us : ∀ a : CertFull, certIsValid chainEnv { chainOpts [chainXSelf, chainX, chainMidFree] with keyUsages := [0] } .leaf [] a = true → Usable chainEnv { chainOpts [chainXSelf, chainX, chainMidFree] with keyUsages := [0] } a :=
      fun a h => (isValid_iff.1 h).2.1
    have fd : ∀ (l : List CertFull) (a b : CertFull), b ∈ l → a.rawIssuer = b.rawSubject → a.ext.authorityKeyId = [] → Findable l a b :=
      fun l a b h1 h2 h3 => ⟨h1, h2, fun h => absurd h3 h⟩
    refine ⟨[chainLeaf, chainX, chainMidFree], chainRoot, ?_, ⟨⟨chainMidFree, rfl, fd _ _ _ (List.mem_singleton.2 rfl) rfl rfl, sg _ _ (by decide +kernel)⟩, ?_, us _ (by decide +kernel), fun _ h => absurd h (by decide)⟩, rfl⟩
    · refine .up (p := [chainLeaf, chainX]) (.up (p := [chainLeaf]) .leaf ⟨⟨chainLeaf, rfl, fd _ _ _ ?_ rfl rfl, sg _ _ (by decide +kernel)⟩, ?_, us _ (by decide +kernel), fun _ h => absurd h (by decide)⟩ rfl rfl)
        ⟨⟨chainX, rfl, fd _ _ _ ?_ rfl rfl, sg _ _ (by decide +kernel)⟩, ?_, us _ (by decide +kernel), fun _ h => absurd h (by decide)⟩ rfl rfl
      · exact List.mem_cons_of_mem _ (List.mem_cons_self ..)
      · intro x hx; obtain rfl := List.mem_singleton.1 hx; decide
      · exact List.mem_cons_of_mem _ (List.mem_cons_of_mem _ (List.mem_cons_self ..))
      · intro x hx
        simp only [List.mem_cons, List.not_mem_nil, or_false] at hx
        rcases hx with rfl | rfl <;> decide
    · intro x hx
      simp only [List.mem_cons, List.not_mem_nil, or_false] at hx
      rcases hx with rfl | rfl | rfl <;> decide

/-- The hypotheses of `C83_root_iff` can be met. -/
theorem C83_root_example : verifyChain chainEnv { roots := some [chainRoot] } chainRoot = some [[chainRoot]] := by
  refine (C83_root_iff (roots := [chainRoot]) (.inl rfl) (by decide) (by decide) (by simp) ⟨chainRoot, List.mem_singleton.2 rfl, rfl, rfl⟩ _).2
    ⟨rfl, rfl, (isValid_iff (role := .leaf) (cur := []).1 (by decide +kernel)).2.1, fun h => absurd rfl h, .inr ⟨1, List.mem_singleton.2 rfl, fun c hc => ?_⟩⟩
  obtain rfl := List.mem_singleton.1 hc
  exact .inl ⟨rfl, rfl⟩

end Apk
