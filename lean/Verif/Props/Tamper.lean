import Verif.Proofs.Functional
import Verif.Proofs.Tamper
/-! # Tamper evidence (C14) -/
namespace Apk
set_option linter.unusedSimpArgs false

/-- An explicit collision among the strings hashed to compute the content digest of type `t` of two section lists. -/
def ContentCollision (env : Env) (t : CD) (secs secs' : List Bytes) : Prop :=
  match t with
  | .chunked256 => CollisionIn env.sha256 (chunkedHashed env.sha256 secs) (chunkedHashed env.sha256 secs')
  | .chunked512 => CollisionIn env.sha512 (chunkedHashed env.sha512 secs) (chunkedHashed env.sha512 secs')
  | .verity256 => CollisionIn env.sha256 (merkleHashed env.sha256 secs.flatten) (merkleHashed env.sha256 secs'.flatten)
  | .nonChunked256 => False

/-- The digests declared by the signers whose digests the library compares with the file under scheme `k`: the v2 signers
    for 2, the v3 signers for 3 and 31. -/
def Declares (env : Env) (ps : List (Nat × Bytes)) (k : Nat) (ds : List (Nat × Bytes)) : Prop :=
  (k = 2 ∧ ∃ b m p vs, lastVal ps idV2 = some b ∧ V2Block env m p b vs ∧ ds = v2Digests vs) ∨
  ((k = 3 ∨ k = 31) ∧ ∃ b m r vs, lastVal ps idV3 = some b ∧ V3Block env m r b vs ∧ ds = v3Digests vs)

theorem Declares.unique {env : Env} {ps : List (Nat × Bytes)} {k : Nat} {ds ds' : List (Nat × Bytes)} (h : Declares env ps k ds)
    (h' : Declares env ps k ds') : ds = ds' := by
  rcases h with ⟨h0, b, m, p, vs, h1, h2, h3⟩ | ⟨h0, b, m, p, vs, h1, h2, h3⟩ <;>
    rcases h' with ⟨g0, b', m', p', vs', g1, g2, g3⟩ | ⟨g0, b', m', p', vs', g1, g2, g3⟩
  · rw [h1] at g1; cases g1; rw [h3, g3, h2.unique g2]
  · omega
  · omega
  · rw [h1] at g1; cases g1; rw [h3, g3, h2.unique g2]

section
variable {env : Env} {zip zip' : Zip} {file file' : Bytes} {minSdk maxSdk minSdk' maxSdk' : Int} {out out' : Outcome}

/-- What an acceptance says about the declared digests. -/
theorem accepted_digests {head area cd rec : Bytes} {k : Nat} (hl : ApkLayout file head area cd rec)
    (h : verifySigningBlock env zip file minSdk maxSdk = .ok out) (he : out.err = none)
    (hs : out.res.map (·.core.schemeId) = some k) (hk : k ≠ 1) :
    ∃ ps ds, PairArea area ps ∧ Declares env ps k ds ∧ ds ≠ [] ∧ DigestsMatch env (signedSections head cd rec) ds := by
  obtain ⟨ps, res, ha, h1, h2, h3⟩ := verdict_sound hl h he
  rw [h1] at hs
  simp only [Option.map_some, Option.some.injEq] at hs
  rcases h3 with h3 | ⟨stale, vs, h3, h4, _⟩
  · generalize hcs : res.core.certs = cs at h3
    generalize hln : res.core.lineage.map Lineage.nodes = ln at h3
    rw [hs] at h3
    cases h3 with
    | old => exact absurd rfl hk
    | v2 _ _ _ hb hA _ =>
      exact ⟨ps, _, ha, .inl ⟨rfl, _, _, _, _, hb, hA.1, rfl⟩, by simp [v2Digests, hA.2.1], hA.2.2⟩
    | v3 _ _ hb hA =>
      exact ⟨ps, _, ha, .inr ⟨.inl rfl, _, _, _, _, hb, hA.1, rfl⟩, by simp [v3Digests, hA.2.1], hA.2.2.1⟩
    | v31 _ _ hb hA =>
      exact ⟨ps, _, ha, .inr ⟨.inr rfl, _, _, _, _, hb, hA.2.2.2.1, rfl⟩, by simp [v3Digests, hA.2.2.2.2.1], hA.2.2.2.2.2.1⟩
  · rw [hs] at h4
    cases h3 with
    | mk _ _ _ _ _ hb hA _ =>
      exact ⟨ps, _, ha, .inl ⟨h4, _, _, _, _, hb, hA.1, rfl⟩, by simp [v2Digests, hA.2.1], hA.2.2⟩

/-- Equal content digests of two located APKs. -/
theorem contentDigest_binds {head area cd rec head' area' cd' rec' : Bytes} (hl : ApkLayout file head area cd rec)
    (hl' : ApkLayout file' head' area' cd' rec') {t : CD} {d : Bytes} (h : contentDigest env t (signedSections head cd rec) = some d)
    (h' : contentDigest env t (signedSections head' cd' rec') = some d) :
    (head = head' ∧ cd = cd' ∧ redirected rec head.length = redirected rec' head'.length) ∨
    ContentCollision env t (signedSections head cd rec) (signedSections head' cd' rec') ∨
    (t = .verity256 ∧ ¬ (Unambiguous head.length ∧ Unambiguous head'.length)) := by
  cases t with
  | nonChunked256 => cases h
  | chunked256 =>
    simp only [contentDigest] at h h'
    split at h <;> split at h' <;> try contradiction
    have e := Option.some.inj (h.trans h'.symm)
    rcases chunked_binds (by decide) env.sha256_len hl hl' e with h | h
    · exact .inl h
    · exact .inr (.inl h)
  | chunked512 =>
    simp only [contentDigest] at h h'
    split at h <;> split at h' <;> try contradiction
    have e := Option.some.inj (h.trans h'.symm)
    rcases chunked_binds (by decide) env.sha512_len hl hl' e with h | h
    · exact .inl h
    · exact .inr (.inl h)
  | verity256 =>
    change (if head.length % 4096 = 0 then _ else _) = _ at h
    change (if head'.length % 4096 = 0 then _ else _) = _ at h'
    have a1 : head.length % 4096 = 0 := by
      refine Classical.byContradiction (fun hn => ?_)
      rw [if_neg hn] at h
      cases h
    have a2 : head'.length % 4096 = 0 := by
      refine Classical.byContradiction (fun hn => ?_)
      rw [if_neg hn] at h'
      cases h'
    rw [if_pos a1] at h
    rw [if_pos a2] at h'
    have e := Option.some.inj (h.trans h'.symm)
    by_cases hu : Unambiguous head.length ∧ Unambiguous head'.length
    · rcases verity_binds env.sha256_len hl hl' a1 a2 hu.1 hu.2 e with h | h
      · exact .inl h
      · exact .inr (.inl h)
    · exact .inr (.inr ⟨rfl, hu⟩)

/-- C14, partial: two files with the same signing block that both verify with a nil error under the same scheme of the signing
    block (possibly for different SDK ranges) have the same bytes before the block, the same central directory and the same
    EOCD record up to the offset field, or a collision among the strings hashed is exhibited. Missing from the full claim: the
    exceptional case of a verity digest and a file whose section before the signing block has a length whose most significant
    byte (of four) is 0x05, 0x4b or 0x50; there the length itself can be read as part of an EOCD magic and the verity digest,
    which covers the mere concatenation, leaves the split between central directory and EOCD record open. -/
theorem C14_tamper_evidence_partial {head area cd rec head' cd' rec' : Bytes} {k : Nat} (hl : ApkLayout file head area cd rec)
    (hl' : ApkLayout file' head' area cd' rec') (hk : k ≠ 1)
    (h : verifySigningBlock env zip file minSdk maxSdk = .ok out) (he : out.err = none)
    (hs : out.res.map (·.core.schemeId) = some k)
    (h' : verifySigningBlock env zip' file' minSdk' maxSdk' = .ok out') (he' : out'.err = none)
    (hs' : out'.res.map (·.core.schemeId) = some k) :
    (head = head' ∧ cd = cd' ∧ redirected rec head.length = redirected rec' head'.length) ∨
    (∃ t, ContentCollision env t (signedSections head cd rec) (signedSections head' cd' rec')) ∨
    (¬ (Unambiguous head.length ∧ Unambiguous head'.length) ∧ ∃ ps ds, PairArea area ps ∧ Declares env ps k ds ∧
      ∀ p ∈ ds, algDigest p.1 = .verity256) := by
  obtain ⟨ps, ds, ha, hd, hne, hm⟩ := accepted_digests hl h he hs hk
  obtain ⟨ps', ds', ha', hd', hne', hm'⟩ := accepted_digests hl' h' he' hs' hk
  have e := pairArea_unique ha ha'
  subst e
  have e := hd.unique hd'
  subst e
  by_cases hall : ∃ p ∈ ds, algDigest p.1 ≠ .verity256
  · obtain ⟨p, hp, hv⟩ := hall
    rcases contentDigest_binds hl hl' (hm p hp) (hm' p hp) with h | h | ⟨h, _⟩
    · exact .inl h
    · exact .inr (.inl ⟨_, h⟩)
    · exact absurd h hv
  · cases ds with
    | nil => exact absurd rfl hne
    | cons p ds =>
      rcases contentDigest_binds hl hl' (hm p (by simp)) (hm' p (by simp)) with h | h | ⟨_, h⟩
      · exact .inl h
      · exact .inr (.inl ⟨_, h⟩)
      · refine .inr (.inr ⟨h, ps, _, ha, hd, fun q hq => ?_⟩)
        refine Classical.byContradiction (fun hn => hall ⟨q, hq, hn⟩)

/-- C14: files whose first section is shorter than 80 MiB are always covered. -/
theorem C14_tamper_evidence_small_partial {head area cd rec head' cd' rec' : Bytes} {k : Nat} (hl : ApkLayout file head area cd rec)
    (hl' : ApkLayout file' head' area cd' rec') (hk : k ≠ 1) (hsz : head.length < 80 * 2 ^ 20) (hsz' : head'.length < 80 * 2 ^ 20)
    (h : verifySigningBlock env zip file minSdk maxSdk = .ok out) (he : out.err = none)
    (hs : out.res.map (·.core.schemeId) = some k)
    (h' : verifySigningBlock env zip' file' minSdk' maxSdk' = .ok out') (he' : out'.err = none)
    (hs' : out'.res.map (·.core.schemeId) = some k) :
    (head = head' ∧ cd = cd' ∧ redirected rec head.length = redirected rec' head'.length) ∨
    (∃ t, ContentCollision env t (signedSections head cd rec) (signedSections head' cd' rec')) := by
  rcases C14_tamper_evidence_partial hl hl' hk h he hs h' he' hs' with h | h | ⟨h, _⟩
  · exact .inl h
  · exact .inr h
  · exfalso
    apply h
    unfold Unambiguous
    omega

end

/-- The hypotheses are met by the toy v2 APK (against itself under another SDK range). -/
example : ∃ out out', Toy.run Toy.psV2 24 35 = .ok out ∧ out.err = none ∧ out.res.map (·.core.schemeId) = some 2 ∧
    Toy.run Toy.psV2 24 27 = .ok out' ∧ out'.err = none ∧ out'.res.map (·.core.schemeId) = some 2 := by
  obtain ⟨out, h, hs⟩ := Toy.runV2
  obtain ⟨res, h1, h2, _⟩ := Toy.sum_res hs
  obtain ⟨out', h', hs'⟩ := Toy.run_sum (ps := Toy.psV2) (a := 24) (b := 27) (some (2, [[Toy.certOf Toy.k1]], []), none) (by decide +kernel)
  obtain ⟨res', h1', h2', _⟩ := Toy.sum_res hs'
  exact ⟨out, out', h, Toy.sum_err hs, by rw [h1]; simp [h2], h', Toy.sum_err hs', by rw [h1']; simp [h2']⟩

end Apk
