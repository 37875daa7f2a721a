import Verif.Props.JarSign
import Verif.Props.Sign
import Verif.Props.TopMore
/-! # C74: signed APKs are accepted by the package -/
namespace Apk

open Jar

/-- A JAR-signed archive, ready for the platforms from `m` to `maxSdk`. -/
structure JarSigned (ce : CertEnv) (env : Env1) (t : TextCode (concreteEnv1 ce env)) (a : JarAlg) (tool : Bytes) (fs : List (Bytes × Bytes)) (ss : List Jar.Signer)
    (z : Zip1) (m maxSdk : Int) : Prop where
  has : HasFiles z (contents t a tool fs ss)
  files : FilesOk fs
  toolPlain : PlainText tool
  stems : (ss.map Jar.Signer.stem).Nodup
  signers : ∀ s ∈ ss, s.Ok ce (concreteEnv1 ce env) (Jar.signatureFile t a tool fs s).bytes
  some : ss ≠ []
  few : ss.length ≤ 10
  alg : AlgFor m maxSdk a
  algs : ∀ s ∈ ss, AlgFor m maxSdk s.alg

/-- The chains are those of the signers. -/
def ChainsOfSigners (env : Env1) (ss : List Jar.Signer) (c : List (List Cert)) : Prop :=
  c.length = ss.length ∧ ∀ raws, raws ∈ c.map (fun ch => ch.map Cert.raw) ↔ ∃ s ∈ ss, ∃ ch, ChainIs env s.parsed s.cert ch ∧ raws = ch.map Cert.raw

variable {ce : CertEnv} {env : Env1} {axml : ZFile → XDoc} {t : TextCode (concreteEnv1 ce env)} {a : JarAlg} {tool : Bytes} {fs : List (Bytes × Bytes)}
  {ss : List Jar.Signer} {z : Zip1} {m minSdk maxSdk : Int} {file : Bytes}

theorem JarSigned.accepted (h : JarSigned ce env t a tool fs ss z m maxSdk) (hl : env.toLower [] = []) (ord : Ord1) {hasBlock : Bool}
    (hd : hasBlock = false → 24 ≤ maxSdk → ∀ s ∈ ss, ∀ ids, s.schemes = .some ids → ¬ ListsTwo ids) :
    ∃ c, verifySchemeV1 (concreteEnv1 ce env) ord z hasBlock m maxSdk = .ok (c, none) ∧ ChainsOfSigners (concreteEnv1 ce env) ss c :=
  C73_signed_jar_accepted ce env t a tool fs ss z ord hasBlock m maxSdk hl h.has h.files h.toolPlain h.stems h.signers h.some h.few h.alg h.algs hd

/-- C74: an APK that is signed with v1 only is accepted, by its v1 signature. -/
theorem C74_signed_v1_accepted (axml : ZFile → XDoc) (ord : Ord1) (h : JarSigned ce env t a tool fs ss z m maxSdk) (hl : env.toLower [] = [])
    (h4 : 4 ≤ file.length) (hno : ∀ head area cd rec, ¬ ApkLayout file head area cd rec) (hm : EffectiveMin ⟨concreteEnv1 ce env, axml⟩ z minSdk m) (hle : m ≤ maxSdk)
    (hd : 24 ≤ maxSdk → ∀ s ∈ ss, ∀ ids, s.schemes = .some ids → ¬ ListsTwo ids)
    (hn : ∀ i, ManifestSays ⟨concreteEnv1 ce env, axml⟩ z i → ¬ NeedsV2 i maxSdk) (hdex : ¬ StartsWithDex file) :
    ∃ res, verifyTop ⟨concreteEnv1 ce env, axml⟩ ord (some z) file minSdk maxSdk = .ok (res, none) ∧ res.schemeId = 1 ∧
      ChainsOfSigners (concreteEnv1 ce env) ss res.certs := by
  obtain ⟨out, r, hv, hnf, hr, _⟩ := C02_unlocatable_not_found (concreteEnv1 ce env).toEnv z.zip file m maxSdk h4 hno
  have hnone : out.err.isNone = false := by
    cases he : out.err with
    | none => rw [he] at hnf; cases hnf
    | some e => rfl
  obtain ⟨c, hc, hcs⟩ := h.accepted hl ord (hasBlock := out.err.isNone) (fun _ => hd)
  have hp : PackageOk ⟨concreteEnv1 ce env, axml⟩ ord z file minSdk maxSdk m out :=
    .jar c (.inr hnf) hc (fun i hi hx => absurd hx (hn i hi)) (fun hb => by
      have := hb.1
      rw [this] at hnf; cases hnf) hdex
  obtain ⟨res, hres⟩ := (C35_accepted_iff ⟨concreteEnv1 ce env, axml⟩ ord z file minSdk maxSdk).2 ⟨m, out, hm, hle, hv, hp⟩
  obtain ⟨m', out', v1, hm', hv', hvv, _, hrep⟩ := C35_reported hres
  cases hm.unique hm'
  have e := hv.symm.trans hv'
  cases e
  have e2 := hc.symm.trans (hvv (.inr hnf))
  cases e2
  refine ⟨res, hres, ?_⟩
  rcases hrep with ⟨he, _⟩ | ⟨he, _⟩ | ⟨_, h1, h2⟩
  · rw [he] at hnf; cases hnf
  · rw [he] at hnf; cases hnf
  · rw [h2]; exact ⟨h1, hcs⟩

/-- C74, the block and the archive: an APK whose signing block is accepted for the range, and which is also signed with v1 if a platform
    before Android 7 is in the range, is accepted, with the scheme and the certificates of the block. -/
theorem block_accepted (axml : ZFile → XDoc) (ord : Ord1) (hl : env.toLower [] = []) {scheme : Nat} {certs : List (List Cert)}
    (hb : AcceptedAs (concreteEnv1 ce env).toEnv z.zip file m maxSdk scheme certs) (h2 : 2 ≤ scheme) (hcs : certs ≠ [])
    (hm : EffectiveMin ⟨concreteEnv1 ce env, axml⟩ z minSdk m) (hle : m ≤ maxSdk)
    (h : m < 24 → JarSigned ce env t a tool fs ss z m maxSdk ∧ (∃ i, ManifestSays ⟨concreteEnv1 ce env, axml⟩ z i) ∧ ¬ StartsWithDex file) :
    ∃ res, verifyTop ⟨concreteEnv1 ce env, axml⟩ ord (some z) file minSdk maxSdk = .ok (res, none) ∧ res.schemeId = scheme ∧ res.certs = certs := by
  obtain ⟨out, r, hv, he, hr, _, hsc, hc⟩ := hb
  have hver : BlockVerified out := ⟨he, r, hr, by omega⟩
  have hp : PackageOk ⟨concreteEnv1 ce env, axml⟩ ord z file minSdk maxSdk m out := by
    by_cases h24 : m < 24
    · obtain ⟨hj, ⟨i, hi⟩, hdex⟩ := h h24
      obtain ⟨c, hc, _⟩ := hj.accepted hl ord (hasBlock := out.err.isNone) (fun hx => by rw [he] at hx; cases hx)
      exact .jar c (.inl ⟨he, h24⟩) hc (fun _ _ _ => hver) (fun _ _ hbad => hbad i hi) hdex
    · exact .block he (by omega)
  obtain ⟨res, hres⟩ := (C35_accepted_iff ⟨concreteEnv1 ce env, axml⟩ ord z file minSdk maxSdk).2 ⟨m, out, hm, hle, hv, hp⟩
  obtain ⟨m', out', v1, hm', hv', _, _, hrep⟩ := C35_reported hres
  cases hm.unique hm'
  have e := hv.symm.trans hv'
  cases e
  refine ⟨res, hres, ?_⟩
  rw [he, hr] at hrep
  rcases hrep with ⟨_, h1, _⟩ | ⟨_, _, h1, _⟩ | ⟨h1, _⟩
  · simp only [Option.map_some, Option.some.injEq, Prod.mk.injEq] at h1
    exact ⟨by omega, by rw [← h1.2, hc]⟩
  · simp only [Option.map_some, Option.some.injEq, Prod.mk.injEq] at h1
    exact absurd (hc.symm.trans h1.2) hcs
  · cases h1

/-- An accepted block without scheme for old platforms leaves the verdict to the v1 signature. -/
theorem old_accepted (axml : ZFile → XDoc) (ord : Ord1) (hl : env.toLower [] = [])
    (hb : AcceptedAs (concreteEnv1 ce env).toEnv z.zip file m maxSdk 1 []) (hmax : maxSdk < 24)
    (hm : EffectiveMin ⟨concreteEnv1 ce env, axml⟩ z minSdk m) (hle : m ≤ maxSdk)
    (h : JarSigned ce env t a tool fs ss z m maxSdk) (hdex : ¬ StartsWithDex file) :
    ∃ res, verifyTop ⟨concreteEnv1 ce env, axml⟩ ord (some z) file minSdk maxSdk = .ok (res, none) ∧ res.schemeId = 1 ∧
      ChainsOfSigners (concreteEnv1 ce env) ss res.certs := by
  obtain ⟨out, r, hv, he, hr, _, hsc, hc⟩ := hb
  obtain ⟨c, hcc, hcs⟩ := h.accepted hl ord (hasBlock := out.err.isNone) (fun hx => by rw [he] at hx; cases hx)
  have hp : PackageOk ⟨concreteEnv1 ce env, axml⟩ ord z file minSdk maxSdk m out := by
    refine .jar c (.inl ⟨he, by omega⟩) hcc (fun i _ hx => ?_) (fun hb => ?_) hdex
    · rcases hx with ⟨hx, _⟩ | ⟨hx, hy⟩ <;> omega
    · obtain ⟨_, r', hr', h2⟩ := hb
      rw [hr] at hr'
      cases hr'
      omega
  obtain ⟨res, hres⟩ := (C35_accepted_iff ⟨concreteEnv1 ce env, axml⟩ ord z file minSdk maxSdk).2 ⟨m, out, hm, hle, hv, hp⟩
  obtain ⟨m', out', v1, hm', hv', hvv, _, hrep⟩ := C35_reported hres
  cases hm.unique hm'
  have e := hv.symm.trans hv'
  cases e
  have e2 := hcc.symm.trans (hvv (.inl (by omega)))
  cases e2
  refine ⟨res, hres, ?_⟩
  rw [he, hr] at hrep
  rcases hrep with ⟨_, h1, h2⟩ | ⟨_, _, h1, h2⟩ | ⟨h1, _⟩
  · simp only [Option.map_some, Option.some.injEq, Prod.mk.injEq] at h1
    have : (24 : Int) ≤ m := h2 (by rw [← h1.2, hc])
    omega
  · simp only [Option.map_some, Option.some.injEq, Prod.mk.injEq] at h1
    rw [h2]
    exact ⟨by omega, hcs⟩
  · cases h1

/-- What the range asks for besides the block: a v1 signature if a platform before Android 7 is in it. -/
def OldPlatformsToo (ce : CertEnv) (env : Env1) (axml : ZFile → XDoc) (t : TextCode (concreteEnv1 ce env)) (a : JarAlg) (tool : Bytes) (fs : List (Bytes × Bytes)) (ss : List Jar.Signer)
    (z : Zip1) (file : Bytes) (m maxSdk : Int) : Prop :=
  m < 24 → JarSigned ce env t a tool fs ss z m maxSdk ∧ (∃ i, ManifestSays ⟨concreteEnv1 ce env, axml⟩ z i) ∧ ¬ StartsWithDex file

/-- Accepted, by the block with the given scheme and certificates, or by v1 if the range ends before Android 7. -/
def PackageAccepts (env : Env1) (axml : ZFile → XDoc) (ord : Ord1) (z : Zip1) (file : Bytes) (minSdk maxSdk : Int) (ss : List Jar.Signer) (scheme : Nat) (certs : List (List Cert)) : Prop :=
  ∃ res, verifyTop ⟨env, axml⟩ ord (some z) file minSdk maxSdk = .ok (res, none) ∧
    (24 ≤ maxSdk → res.schemeId = scheme ∧ res.certs = certs) ∧ (maxSdk < 24 → res.schemeId = 1 ∧ ChainsOfSigners env ss res.certs)

open Sign

/-- Before Android 7 the block is accepted without being looked at. -/
theorem old_block {env : Env} {zip : Zip} {u : Unsigned} (hu : u.Ok) {ps : List (Nat × Bytes)} (hs : (u.signed ps).length < 2147483648) (hx : u.Last ps)
    (hid : ∀ p ∈ ps, (p.1 = idV2 ∨ p.1 = idV3 ∨ p.1 = idV31) ∧ p.2 ≠ []) (hmax : maxSdk < 24) : AcceptedAs env zip (u.signed ps) m maxSdk 1 [] :=
  accepted_of_verdict hu hs hx (fun p hp => id_ok (hid p hp).1 (hid p hp).2) (.old hmax)

theorem package_accepts (axml : ZFile → XDoc) (ord : Ord1) (hl : env.toLower [] = []) {u : Unsigned} (hu : u.Ok) {ps : List (Nat × Bytes)}
    (hs : (u.signed ps).length < 2147483648) (hx : u.Last ps) (hid : ∀ p ∈ ps, (p.1 = idV2 ∨ p.1 = idV3 ∨ p.1 = idV31) ∧ p.2 ≠ [])
    {scheme : Nat} {certs : List (List Cert)} (hb : 24 ≤ maxSdk → AcceptedAs (concreteEnv1 ce env).toEnv z.zip (u.signed ps) m maxSdk scheme certs)
    (h2 : 24 ≤ maxSdk → 2 ≤ scheme) (hcs : certs ≠ []) (hm : EffectiveMin ⟨concreteEnv1 ce env, axml⟩ z minSdk m) (hle : m ≤ maxSdk)
    (h : OldPlatformsToo ce env axml t a tool fs ss z (u.signed ps) m maxSdk) :
    PackageAccepts (concreteEnv1 ce env) axml ord z (u.signed ps) minSdk maxSdk ss scheme certs := by
  by_cases h24 : 24 ≤ maxSdk
  · obtain ⟨res, h1, h3⟩ := block_accepted axml ord hl (hb h24) (h2 h24) hcs hm hle h
    exact ⟨res, h1, fun _ => h3, fun hn => by omega⟩
  · obtain ⟨hj, _, hdex⟩ := h (by omega)
    obtain ⟨res, h1, h3⟩ := old_accepted axml ord hl (old_block hu hs hx hid (by omega)) (by omega) hm hle hj hdex
    exact ⟨res, h1, fun hn => absurd hn h24, fun _ => h3⟩

/-- C74: an APK that is signed with v2 by one to ten signers, and with v1 if it is for platforms before Android 7, is accepted for any
    range of platforms. -/
theorem C74_signed_v2_accepted (axml : ZFile → XDoc) (ord : Ord1) (hl : env.toLower [] = []) (u : Unsigned) (hu : u.Ok) (l : List (Sign.Signer × Cert × List Cert)) (hne : l ≠ [])
    (h10 : l.length ≤ 10) (hg : ∀ p ∈ l, p.1.Good (concreteEnv1 ce env).toEnv p.2.1 p.2.2 ∧ Paged u p.1)
    (hs : (u.signed (pairsV2 (concreteEnv1 ce env).toEnv u (l.map (·.1)))).length < 2147483648) (hx : u.Last (pairsV2 (concreteEnv1 ce env).toEnv u (l.map (·.1))))
    (hm : EffectiveMin ⟨concreteEnv1 ce env, axml⟩ z minSdk m) (hle : m ≤ maxSdk)
    (h : OldPlatformsToo ce env axml t a tool fs ss z (u.signed (pairsV2 (concreteEnv1 ce env).toEnv u (l.map (·.1)))) m maxSdk) :
    PackageAccepts (concreteEnv1 ce env) axml ord z (u.signed (pairsV2 (concreteEnv1 ce env).toEnv u (l.map (·.1)))) minSdk maxSdk ss 2 (l.map (fun p => p.2.1 :: p.2.2)) :=
  package_accepts axml ord hl hu hs hx (fun p hp => by rw [List.mem_singleton.1 hp]; exact ⟨.inl rfl, signers_ne _⟩)
    (fun h24 => C71_signed_v2_accepted _ _ u hu l hne h10 hg hs hx m maxSdk h24) (fun _ => by omega) (fun hn => hne (List.map_eq_nil_iff.1 hn)) hm hle h

/-- C74: the same with v2 and v3. -/
theorem C74_signed_v2_v3_accepted (axml : ZFile → XDoc) (ord : Ord1) (hl : env.toLower [] = []) (u : Unsigned) (hu : u.Ok) (s : Sign.Signer) (main : Cert) (more : List Cert)
    (g : s.Good (concreteEnv1 ce env).toEnv main more) (hp : Paged u s)
    (hs : (u.signed (pairsV2V3 (concreteEnv1 ce env).toEnv u s)).length < 2147483648) (hx : u.Last (pairsV2V3 (concreteEnv1 ce env).toEnv u s))
    (hm : EffectiveMin ⟨concreteEnv1 ce env, axml⟩ z minSdk m) (hle : m ≤ maxSdk) (hM : maxSdk ≤ 2147483647)
    (h : OldPlatformsToo ce env axml t a tool fs ss z (u.signed (pairsV2V3 (concreteEnv1 ce env).toEnv u s)) m maxSdk) :
    PackageAccepts (concreteEnv1 ce env) axml ord z (u.signed (pairsV2V3 (concreteEnv1 ce env).toEnv u s)) minSdk maxSdk ss (if 28 ≤ maxSdk then 3 else 2) [main :: more] := by
  refine package_accepts axml ord hl hu hs hx ?_
    (fun h24 => C71_signed_v2_v3_accepted _ _ u hu s main more g hp hs hx m maxSdk h24 hM) (fun _ => by split <;> omega) (by simp) hm hle h
  intro p hp
  rcases List.mem_cons.1 hp with rfl | hp
  · exact ⟨.inl rfl, signers_ne _⟩
  · rw [List.mem_singleton.1 hp]; exact ⟨.inr (.inl rfl), signers_ne _⟩

/-- C74: the same after a change of the key, for ranges that end before Android 13 (with the old key) or reach the platform where the new
    key takes over. -/
theorem C74_signed_rotated_accepted (axml : ZFile → XDoc) (ord : Ord1) (hl : env.toLower [] = []) (u : Unsigned) (hu : u.Ok) (old new : Sign.Signer) (main newMain : Cert) (more newMore : List Cert)
    (g : old.Good (concreteEnv1 ce env).toEnv main more) (hp : Paged u old) (g' : new.Good (concreteEnv1 ce env).toEnv newMain newMore) (ms : List (Member × Cert))
    (hms : ∀ p ∈ ms, p.1.Good (concreteEnv1 ce env).toEnv p.2)
    (hd : (ms.map (·.2.raw)).Nodup) (hlast : (ms.map (·.2.raw)).getLast? = some newMain.raw) (rot : Nat) (hr : 33 ≤ rot) (hr' : rot < 2147483647)
    (hs : (u.signed (pairsRotated (concreteEnv1 ce env).toEnv u old new (ms.map (·.1)) rot)).length < 2147483648)
    (hx : u.Last (pairsRotated (concreteEnv1 ce env).toEnv u old new (ms.map (·.1)) rot))
    (hm : EffectiveMin ⟨concreteEnv1 ce env, axml⟩ z minSdk m) (hle : m ≤ maxSdk) (hM : maxSdk < 33 ∨ (rot ≤ maxSdk ∧ maxSdk ≤ 2147483647))
    (h : OldPlatformsToo ce env axml t a tool fs ss z (u.signed (pairsRotated (concreteEnv1 ce env).toEnv u old new (ms.map (·.1)) rot)) m maxSdk) :
    PackageAccepts (concreteEnv1 ce env) axml ord z (u.signed (pairsRotated (concreteEnv1 ce env).toEnv u old new (ms.map (·.1)) rot)) minSdk maxSdk ss
      (if 33 ≤ maxSdk then 31 else if 28 ≤ maxSdk then 3 else 2) (if 33 ≤ maxSdk then [newMain :: newMore] else [main :: more]) := by
  refine package_accepts axml ord hl hu hs hx ?_ (fun h24 => ?_) ?_ (by split <;> simp) hm hle h
  · intro p hp
    rcases List.mem_cons.1 hp with rfl | hp
    · exact ⟨.inl rfl, signers_ne _⟩
    · rcases List.mem_cons.1 hp with rfl | hp
      · exact ⟨.inr (.inl rfl), signers_ne _⟩
      · rw [List.mem_singleton.1 hp]; exact ⟨.inr (.inr rfl), signers_ne _⟩
  · rcases hM with hM | ⟨hM, hM'⟩
    · have hn : ¬ (33 ≤ maxSdk) := by omega
      rw [if_neg hn, if_neg hn]
      exact C71_signed_rotated_accepted_before _ _ u hu old new main more g hp _ rot hr (by omega) hs hx m maxSdk h24 hM
    · have hn : 33 ≤ maxSdk := by omega
      rw [if_pos hn, if_pos hn]
      obtain ⟨out, res, h1, h2, h3, h4, h5, h6, _⟩ := C71_signed_rotated_accepted_after _ z.zip u hu old new main newMain more newMore g hp g' ms hms hd hlast rot hr hr' hs hx m maxSdk hM hM'
      exact ⟨out, res, h1, h2, h3, h4, h5, h6⟩
  · intro _
    split
    · omega
    · split <;> omega

end Apk
