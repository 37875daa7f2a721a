import Verif.Spec.JarSign
import Verif.Props.Manifest
import Verif.Props.Pkcs7
import Verif.Props.V1Exact
import Verif.Props.V1Auth
/-! # Archives signed by the reference JAR signer meet the conditions of the verifier -/
namespace Apk.Jar

/-! ## The texts -/

theorem canonical_value (name value : Bytes) : (canonicalAttr name value).value = value := by
  obtain ⟨i1, _⟩ := pieces_spec 70 (value.drop (70 - name.length))
  unfold WAttr.value canonicalAttr
  simp only [List.map_map]
  have : ((fun x : Eol × Bytes => x.2) ∘ fun p => (Eol.crlf, p)) = id := rfl
  rw [this, List.map_id, i1, List.take_append_drop]

theorem canonical_ok {name value : Bytes} (h : isValidName name = true) (hv : PlainText value) : (canonicalAttr name value).Ok := by
  obtain ⟨h1, h2, h3⟩ := (isValidName_iff _).1 h
  exact (C40_canonical_writer name value h1 h2 h3 hv).1

theorem digest_ok {env : Env1} (t : TextCode env) (a : JarAlg) (suffix data : Bytes) (h : isValidName (algText a ++ suffix) = true) :
    (digestAttr t a suffix data).Ok := canonical_ok h (t.plain _)

theorem valid_digest (a : JarAlg) : isValidName (algText a ++ b!"-Digest") = true := by cases a <;> decide
theorem valid_manifest (a : JarAlg) : isValidName (algText a ++ b!"-Digest-Manifest") = true := by cases a <;> decide
theorem valid_main (a : JarAlg) : isValidName (algText a ++ b!"-Digest-Manifest-Main-Attributes") = true := by cases a <;> decide

theorem manifest_ok {env : Env1} (t : TextCode env) (a : JarAlg) {tool : Bytes} {fs : List (Bytes × Bytes)} (ht : PlainText tool) (hf : ∀ f ∈ fs, PlainText f.1) :
    (manifest t a tool fs).Ok := by
  refine ⟨by simp [manifest], ?_, ?_, ?_⟩
  · intro s hs x hx
    rw [List.mem_cons] at hs
    rcases hs with rfl | hs
    · simp only [manifest, List.mem_cons, List.not_mem_nil, or_false] at hx
      rcases hx with rfl | rfl
      · exact canonical_ok (by decide) (by unfold PlainText; decide)
      · exact canonical_ok (by decide) ht
    · simp only [manifest, List.map_map, List.mem_map, Function.comp_apply] at hs
      obtain ⟨f, hf', rfl⟩ := hs
      simp only [fileSection, List.mem_cons, List.not_mem_nil, or_false] at hx
      rcases hx with rfl | rfl
      · exact canonical_ok (by decide) (hf f hf')
      · exact digest_ok t a _ _ (valid_digest a)
  · intro p hp
    simp only [manifest, List.mem_map] at hp
    obtain ⟨f, _, rfl⟩ := hp
    exact ⟨_, _, rfl, by show asciiLower (b!"Name") = _; decide, canonical_value _ _⟩
  · intro s hs
    have hs := List.dropLast_subset _ hs
    rw [List.mem_cons] at hs
    rcases hs with rfl | hs
    · simp [manifest]
    · simp only [manifest, List.map_map, List.mem_map, Function.comp_apply] at hs
      obtain ⟨f, _, rfl⟩ := hs
      simp [fileSection]

theorem signatureFile_ok {env : Env1} (t : TextCode env) (a : JarAlg) {tool : Bytes} {fs : List (Bytes × Bytes)} {s : Signer} (ht : PlainText s.tool)
    (hs : ∀ v, s.schemes = some v → PlainText v) (hf : ∀ f ∈ fs, PlainText f.1) : (signatureFile t a tool fs s).Ok := by
  refine ⟨by simp [signatureFile], ?_, ?_, ?_⟩
  · intro w hw x hx
    rw [List.mem_cons] at hw
    rcases hw with rfl | hw
    · simp only [signatureFile, List.mem_append, List.mem_cons, List.not_mem_nil, or_false] at hx
      rcases hx with ((rfl | rfl | rfl) | hx) | hx
      · exact canonical_ok (by decide) (by unfold PlainText; decide)
      · exact canonical_ok (by decide) ht
      · exact digest_ok t _ _ _ (valid_manifest _)
      · split at hx
        · simp only [List.mem_cons, List.not_mem_nil, or_false] at hx
          subst hx
          exact digest_ok t _ _ _ (valid_main _)
        · cases hx
      · obtain ⟨v, hv, rfl⟩ := List.mem_map.1 hx
        exact canonical_ok (by decide) (hs v (by simpa using hv))
    · simp only [signatureFile, List.map_map, List.mem_map, Function.comp_apply] at hw
      obtain ⟨f, hf', rfl⟩ := hw
      simp only [List.mem_cons, List.not_mem_nil, or_false] at hx
      rcases hx with rfl | rfl
      · exact canonical_ok (by decide) (hf f hf')
      · exact digest_ok t _ _ _ (valid_digest _)
  · intro p hp
    simp only [signatureFile, List.mem_map] at hp
    obtain ⟨f, _, rfl⟩ := hp
    exact ⟨_, _, rfl, by show asciiLower (b!"Name") = _; decide, canonical_value _ _⟩
  · intro w hw
    have hw := List.dropLast_subset _ hw
    rw [List.mem_cons] at hw
    rcases hw with rfl | hw
    · simp [signatureFile]
    · simp only [signatureFile, List.map_map, List.mem_map, Function.comp_apply] at hw
      obtain ⟨f, _, rfl⟩ := hw
      simp

/-! ## Digests -/

theorem lookup_cons (x : WAttr) (xs : List WAttr) (k : Bytes) :
    WSection.lookup (x :: xs) k = (WSection.lookup xs k).or (if asciiLower x.name = k then some x.value else none) := by
  unfold WSection.lookup
  rw [List.filter_cons]
  by_cases h : asciiLower x.name = k
  · rw [if_pos (by simp [h]), if_pos h]
    cases hf : xs.filter (fun a => decide (asciiLower a.name = k)) with
    | nil => simp
    | cons y ys => rw [List.getLast?_cons_cons]; cases hg : (y :: ys).getLast? with
      | none => simp at hg
      | some w => simp
  · rw [if_neg (by simp [h]), if_neg h]; simp

theorem lookup_nil (k : Bytes) : WSection.lookup [] k = none := rfl

/-- Exactly one digest `h`, by the algorithm `a`, and no list of algorithms. -/
structure OneDigest (env : Env1) (attrs : Attrs) (suffix : Bytes) (a : JarAlg) (h : Option Bytes) : Prop where
  algs : mget attrs (b!"digest-algorithms") = none
  sha : mget attrs (b!"sha" ++ suffix) = none
  here : ∀ b : JarAlg, b ≠ a → mget attrs (b.name ++ suffix) = none
  value : ∀ v, mget attrs (a.name ++ suffix) = some v → ∃ x, h = some x ∧ env.base64 v = some x
  present : h ≠ none → ∃ v, mget attrs (a.name ++ suffix) = some v

theorem OneDigest.has {env : Env1} {attrs : Attrs} {suffix : Bytes} {a b : JarAlg} {h : Option Bytes} (hd : OneDigest env attrs suffix a h)
    (hb : HasDigest attrs suffix b.name) : b = a := by
  obtain ⟨v, hv⟩ := hb
  refine Classical.byContradiction fun hn => ?_
  rw [hd.here b hn] at hv
  cases hv

theorem listed_default {env : Env1} {attrs : Attrs} (hl : env.toLower [] = []) (h : mget attrs (b!"digest-algorithms") = none) :
    listedAlgs env attrs = b!"sha sha1" := by
  unfold listedAlgs
  rw [h]
  simp [hl]

theorem default_token {t : Bytes} (h : Token 32 (b!"sha sha1") t) : t = b!"sha" ∨ t = JarAlg.name .sha1 := by
  have := token_mem_splitByte h
  have e : splitByte 32 (b!"sha sha1") = [b!"sha", b!"sha1"] := by decide
  rw [e] at this
  simpa [JarAlg.name] using this

/-- What is checked is the digest. -/
theorem OneDigest.checked {env : Env1} {attrs : Attrs} {suffix : Bytes} {a : JarAlg} {h : Option Bytes} {minSdk maxSdk : Int} (hl : env.toLower [] = [])
    (hd : OneDigest env attrs suffix a h) {n : Bytes} (hc : Checked env attrs suffix minSdk maxSdk n) : n = a.name ∧ HasDigest attrs suffix n := by
  cases hc with
  | strongest b _ hb _ => exact ⟨by rw [hd.has hb], hb⟩
  | listed _ _ ht hb _ =>
    rw [listed_default hl hd.algs] at ht
    rcases default_token ht with rfl | rfl
    · obtain ⟨v, hv⟩ := hb
      rw [hd.sha] at hv; cases hv
    · exact ⟨by rw [hd.has hb], hb⟩

theorem OneDigest.entryOk {env : Env1} {attrs : Attrs} {suffix h : Bytes} {a : JarAlg} {minSdk maxSdk : Int} (hl : env.toLower [] = [])
    (hd : OneDigest env attrs suffix a (some h)) (ha : AlgFor minSdk maxSdk a) {P : JarAlg → Bytes → Prop} (hp : P a h) :
    EntryOk env attrs suffix minSdk maxSdk P := by
  obtain ⟨v, hv⟩ := hd.present (by simp)
  constructor
  · rcases ha with ha | ⟨ha, rfl⟩
    · refine ⟨_, .strongest a ha ⟨v, hv⟩ fun b hb hh => ?_⟩
      rw [hd.has hh] at hb
      omega
    · refine ⟨_, .listed _ ha ?_ ⟨v, hv⟩ (.inr ⟨by decide, by decide⟩)⟩
      rw [listed_default hl hd.algs]
      exact splitByte_mem_token (by decide)
  · intro n hn
    obtain ⟨rfl, _⟩ := hd.checked hl hn
    obtain ⟨x, hx, hb⟩ := hd.value v hv
    cases hx
    exact ⟨a, _, rfl, ⟨v, hv, hb⟩, hp⟩

theorem OneDigest.mainAttrs {env : Env1} {mf sm : Manifest} {a : JarAlg} {h : Option Bytes} {minSdk maxSdk : Int} (hl : env.toLower [] = [])
    (hd : OneDigest env sm.main (b!"-digest-manifest-main-attributes") a h) (hh : ∀ x, h = some x → a.hash env (mf.rawData.take mf.mainEnd) = x) :
    MainAttrsOk env mf sm minSdk maxSdk := by
  refine .inr (.inr ⟨_, inOrder_iff.2 rfl, _, [], (List.append_nil _).symm, ?_, .inl rfl⟩)
  obtain ⟨old, new, e, h1, h2⟩ := inOrder_iff.2 (rfl : digestsToVerify env sm.main (b!"-digest-manifest-main-attributes") minSdk maxSdk = _)
  rw [e]
  have good : ∀ n, n = a.name → HasDigest sm.main (b!"-digest-manifest-main-attributes") n →
      RightDigest env sm.main (b!"-digest-manifest-main-attributes") (fun a h => a.hash env (mf.rawData.take mf.mainEnd) = h) n := by
    rintro n rfl ⟨v, hv⟩
    obtain ⟨x, hx, hb⟩ := hd.value v hv
    exact ⟨a, x, rfl, ⟨v, hv, hb⟩, hh x hx⟩
  intro n hn
  rcases List.mem_append.1 hn with hn | hn
  · split at h1
    · obtain ⟨toks, ht, rfl⟩ := h1
      rw [List.mem_filter] at hn
      simp only [decide_eq_true_eq] at hn
      obtain ⟨hn1, _, hn2⟩ := hn
      obtain ⟨v, hv⟩ := Option.isSome_iff_exists.1 hn2
      rw [listed_default hl hd.algs] at ht
      have ht := pieces_iff.1 ht
      have e : splitByte 32 (b!"sha sha1") = [b!"sha", b!"sha1"] := by decide
      rw [e] at ht
      rw [ht] at hn1
      simp only [List.mem_cons, List.not_mem_nil, or_false] at hn1
      rcases hn1 with rfl | rfl
      · rw [hd.sha] at hv; cases hv
      · have : (JarAlg.sha1) = a := hd.has (b := .sha1) ⟨v, hv⟩
        subst this
        exact good _ rfl ⟨v, hv⟩
    · subst h1; cases hn
  · split at h2
    · rcases h2 with ⟨rfl, _⟩ | ⟨b, rfl, hb, _⟩
      · cases hn
      · simp only [List.mem_cons, List.not_mem_nil, or_false] at hn
        subst hn
        exact good _ (by rw [hd.has hb]) hb
    · subst h2; cases hn

/-! ## The attributes as written -/

theorem name_digest (a : JarAlg) : asciiLower (algText a ++ b!"-Digest") = a.name ++ b!"-digest" := by cases a <;> decide

theorem lookup_digest {env : Env1} (t : TextCode env) (a : JarAlg) (data k : Bytes) :
    WSection.lookup [digestAttr t a (b!"-Digest") data] k = if a.name ++ b!"-digest" = k then some (t.enc (a.hash env data)) else none := by
  rw [lookup_cons, lookup_nil]
  show (none : Option Bytes).or (if asciiLower (algText a ++ b!"-Digest") = k then some (canonicalAttr _ _).value else none) = _
  rw [name_digest, canonical_value]
  rfl

/-- The attributes of an entry. -/
theorem entry_oneDigest {env : Env1} {t : TextCode env} {a : JarAlg} {data : Bytes} {as : Attrs}
    (h : ∀ k, mget as k = WSection.lookup [digestAttr t a (b!"-Digest") data] k) : OneDigest env as (b!"-digest") a (some (a.hash env data)) := by
  have h : ∀ k, mget as k = if a.name ++ b!"-digest" = k then some (t.enc (a.hash env data)) else none := fun k => by rw [h, lookup_digest]
  refine ⟨?_, ?_, ?_, ?_, ?_⟩
  · rw [h, if_neg]
    cases a <;> decide
  · rw [h, if_neg]
    cases a <;> decide
  · intro b hb
    rw [h, if_neg]
    intro e
    exact hb (JarAlg.name_inj (List.append_cancel_right e)).symm
  · intro v hv
    rw [h, if_pos rfl] at hv
    cases hv
    exact ⟨_, rfl, t.dec _⟩
  · intro _
    rw [h, if_pos rfl]
    exact ⟨_, rfl⟩

/-- The names of the main attributes of a signature file, in lower case. -/
theorem sf_lookup {env : Env1} (t : TextCode env) (a : JarAlg) (tool : Bytes) (fs : List (Bytes × Bytes)) (s : Signer) (k : Bytes) :
    WSection.lookup (signatureFile t a tool fs s).main.attrs k =
      ((if b!"x-android-apk-signed" = k then s.schemes else none).or
      ((if s.alg.name ++ b!"-digest-manifest-main-attributes" = k ∧ s.mainDigest = true then some (t.enc (s.alg.hash env (manifest t a tool fs).main.bytes)) else none).or
      ((if s.alg.name ++ b!"-digest-manifest" = k then some (t.enc (s.alg.hash env (manifest t a tool fs).bytes)) else none).or
      ((if b!"created-by" = k then some s.tool else none).or
      (if b!"signature-version" = k then some (b!"1.0") else none))))) := by
  have n1 : asciiLower (b!"Signature-Version") = b!"signature-version" := by decide
  have n2 : asciiLower (b!"Created-By") = b!"created-by" := by decide
  have n3 : asciiLower (algText s.alg ++ b!"-Digest-Manifest") = s.alg.name ++ b!"-digest-manifest" := by cases s.alg <;> decide
  have n4 : asciiLower (algText s.alg ++ b!"-Digest-Manifest-Main-Attributes") = s.alg.name ++ b!"-digest-manifest-main-attributes" := by cases s.alg <;> decide
  have n5 : asciiLower (b!"X-Android-APK-Signed") = b!"x-android-apk-signed" := by decide
  have one : ∀ (n v k : Bytes) (xs : List WAttr), WSection.lookup (canonicalAttr n v :: xs) k = (WSection.lookup xs k).or (if asciiLower n = k then some v else none) := by
    intro n v k xs
    rw [lookup_cons, canonical_value]
    rfl
  unfold signatureFile digestAttr
  have last : WSection.lookup (s.schemes.toList.map (canonicalAttr (b!"X-Android-APK-Signed"))) k = if b!"x-android-apk-signed" = k then s.schemes else none := by
    cases s.schemes with
    | none => simp [lookup_nil]
    | some v =>
      show WSection.lookup [canonicalAttr (b!"X-Android-APK-Signed") v] k = _
      rw [one, lookup_nil, n5]; simp
  cases s.mainDigest with
  | false => simp only [List.cons_append, List.nil_append, List.append_nil, Bool.false_eq_true, if_false, one, n1, n2, n3, last, Option.or_assoc, and_false, Option.none_or]
  | true => simp only [List.cons_append, List.nil_append, if_true, one, n1, n2, n3, n4, last, Option.or_assoc, and_true]

theorem sf_keys (al : JarAlg) (md : Bool) (sch : Option Bytes) (x y z : Bytes) (k : Bytes) (v : Option Bytes)
    (h : v = ((if b!"x-android-apk-signed" = k then sch else none).or
      ((if al.name ++ b!"-digest-manifest-main-attributes" = k ∧ md = true then some x else none).or
      ((if al.name ++ b!"-digest-manifest" = k then some y else none).or
      ((if b!"created-by" = k then some z else none).or
      (if b!"signature-version" = k then some (b!"1.0") else none)))))) :
    (k = b!"digest-algorithms" → v = none) ∧ (k = b!"sha" ++ b!"-digest-manifest" → v = none) ∧
    (k = b!"sha" ++ b!"-digest-manifest-main-attributes" → v = none) ∧
    (∀ b : JarAlg, k = b.name ++ b!"-digest-manifest" → v = if b = al then some y else none) ∧
    (∀ b : JarAlg, k = b.name ++ b!"-digest-manifest-main-attributes" → v = if b = al ∧ md = true then some x else none) ∧
    (k = b!"created-by" → v = some z) ∧ (k = b!"signature-version" → v = some (b!"1.0")) ∧ (k = b!"x-android-apk-signed" → v = sch) := by
  subst h
  refine ⟨?_, ?_, ?_, fun b => ?_, fun b => ?_, ?_, ?_, ?_⟩
  · rintro rfl; cases al <;> simp [JarAlg.name]
  · rintro rfl; cases al <;> simp [JarAlg.name]
  · rintro rfl; cases al <;> simp [JarAlg.name]
  · rintro rfl; cases b <;> cases al <;> simp [JarAlg.name]
  · rintro rfl; cases b <;> cases al <;> cases md <;> simp [JarAlg.name]
  · rintro rfl; cases al <;> simp [JarAlg.name]
  · rintro rfl; cases al <;> simp [JarAlg.name]
  · rintro rfl; cases al <;> simp [JarAlg.name]

theorem sf_whole {env : Env1} {t : TextCode env} {a : JarAlg} {tool : Bytes} {fs : List (Bytes × Bytes)} {s : Signer} {sm : Manifest}
    (h : ∀ k, mget sm.main k = WSection.lookup (signatureFile t a tool fs s).main.attrs k) :
    OneDigest env sm.main (b!"-digest-manifest") s.alg (some (s.alg.hash env (manifest t a tool fs).bytes)) ∧
    OneDigest env sm.main (b!"-digest-manifest-main-attributes") s.alg (if s.mainDigest then some (s.alg.hash env (manifest t a tool fs).main.bytes) else none) ∧
    mget sm.main (b!"created-by") = some s.tool ∧ mget sm.main (b!"signature-version") = some (b!"1.0") ∧ mget sm.main (b!"x-android-apk-signed") = s.schemes := by
  have key := fun k => sf_keys s.alg s.mainDigest s.schemes _ _ s.tool k (mget sm.main k) (by rw [h, sf_lookup])
  refine ⟨⟨(key _).1 rfl, (key _).2.1 rfl, ?_, ?_, ?_⟩, ⟨(key _).1 rfl, (key _).2.2.1 rfl, ?_, ?_, ?_⟩, (key _).2.2.2.2.2.1 rfl, (key _).2.2.2.2.2.2.1 rfl, (key _).2.2.2.2.2.2.2 rfl⟩
  · intro b hb
    rw [(key _).2.2.2.1 b rfl, if_neg hb]
  · intro v hv
    rw [(key _).2.2.2.1 s.alg rfl, if_pos rfl] at hv
    cases hv
    exact ⟨_, rfl, t.dec _⟩
  · intro _
    exact ⟨_, by rw [(key _).2.2.2.1 s.alg rfl, if_pos rfl]⟩
  · intro b hb
    rw [(key _).2.2.2.2.1 b rfl, if_neg (fun h => hb h.1)]
  · intro v hv
    rw [(key _).2.2.2.2.1 s.alg rfl] at hv
    cases hm : s.mainDigest with
    | false => rw [hm] at hv; simp at hv
    | true =>
      rw [if_pos ⟨rfl, hm⟩] at hv
      cases hv
      exact ⟨_, rfl, t.dec _⟩
  · intro hm
    cases hm' : s.mainDigest with
    | false => rw [hm'] at hm; exact absurd rfl hm
    | true => exact ⟨_, by rw [(key _).2.2.2.2.1 s.alg rfl, if_pos ⟨rfl, hm'⟩]⟩

/-- The entries of a manifest with sections for distinct files. -/
theorem entries_lookup {fs : List (Bytes × Bytes)} (hn : (fs.map (·.1)).Nodup) (g : Bytes × Bytes → List WAttr) {f : Bytes × Bytes} (hf : f ∈ fs) :
    ((fs.map (fun f => (f.1, ({ attrs := g f } : WSection)))).filter (fun p => decide (p.1 = f.1))).flatMap (fun p => p.2.attrs.tail) = (g f).tail := by
  induction fs with
  | nil => cases hf
  | cons x fs ih =>
    rw [List.map_cons, List.nodup_cons] at hn
    rw [List.map_cons, List.filter_cons]
    rcases List.mem_cons.1 hf with rfl | hf
    · have : (fs.map (fun f => (f.1, ({ attrs := g f } : WSection)))).filter (fun p => decide (p.1 = f.1)) = [] := by
        rw [List.filter_eq_nil_iff]
        intro p hp
        obtain ⟨y, hy, rfl⟩ := List.mem_map.1 hp
        simp only [decide_eq_true_eq]
        intro e
        exact hn.1 (by rw [← e]; exact List.mem_map.2 ⟨y, hy, rfl⟩)
      rw [if_pos (by simp), this]
      simp
    · have hne : x.1 ≠ f.1 := fun e => hn.1 (by rw [e]; exact List.mem_map.2 ⟨f, hf, rfl⟩)
      rw [if_neg (by simp [hne])]
      exact ih hn.2 hf

/-- What the verifier reads of the manifest. -/
theorem manifest_read {env : Env1} (t : TextCode env) (a : JarAlg) {tool : Bytes} {fs : List (Bytes × Bytes)} (ht : PlainText tool) (hf : FilesOk fs) :
    ∃ mf, parseManifestData true (manifest t a tool fs).bytes = .ok (.ok mf) ∧ mf.rawData = (manifest t a tool fs).bytes ∧
      mf.rawData.take mf.mainEnd = (manifest t a tool fs).main.bytes ∧ (∀ n as, (n, as) ∈ mf.entries → n ∈ fs.map (·.1)) ∧
      ∀ f ∈ fs, ∃ as, mget mf.entries f.1 = some as ∧ OneDigest env as (b!"-digest") a (some (a.hash env f.2)) := by
  have hs : (manifest t a tool fs).sections.map (·.1) = fs.map (·.1) := by
    simp [manifest]
  obtain ⟨mf, h1, h2, h3, h4, h5, h6, h7⟩ := C40_roundtrip (manifest_ok t a ht hf.plain) true (fun _ => by rw [hs]; exact hf.distinct)
  refine ⟨mf, h1, h2, ?_, ?_, ?_⟩
  · rw [h2, h3]
    unfold WDoc.bytes
    rw [List.take_left]
  · intro n as hm
    rw [← hs]
    refine (h5 n).1 ?_
    cases hg : mget mf.entries n with
    | some v => rfl
    | none =>
      exact absurd rfl (mget_none.1 hg _ hm)
  · intro f hm
    have : (mget mf.entries f.1).isSome = true := (h5 f.1).2 (by rw [hs]; exact List.mem_map.2 ⟨f, hm, rfl⟩)
    obtain ⟨as, has⟩ := Option.isSome_iff_exists.1 this
    refine ⟨as, has, entry_oneDigest (t := t) fun k => ?_⟩
    rw [h6 _ _ has]
    exact congrArg (WSection.lookup · k) (entries_lookup hf.distinct (fun f => [canonicalAttr (b!"Name") f.1, digestAttr t a (b!"-Digest") f.2]) hm)

/-- What the verifier reads of a signature file. -/
theorem signatureFile_read {env : Env1} (t : TextCode env) (a : JarAlg) {tool : Bytes} {fs : List (Bytes × Bytes)} {s : Signer} (hf : FilesOk fs) (ht : PlainText s.tool)
    (hs : ∀ v, s.schemes = some v → PlainText v) :
    ∃ sm, parseManifestData false (signatureFile t a tool fs s).bytes = .ok (.ok sm) ∧ sm.rawData = (signatureFile t a tool fs s).bytes ∧
      (∀ k, mget sm.main k = WSection.lookup (signatureFile t a tool fs s).main.attrs k) ∧ ∀ f ∈ fs, ∃ as, mget sm.entries f.1 = some as := by
  have he : (signatureFile t a tool fs s).sections.map (·.1) = fs.map (·.1) := by
    simp [signatureFile]
  obtain ⟨sm, h1, h2, h3, h4, h5, h6, h7⟩ := C40_roundtrip (signatureFile_ok t a (tool := tool) ht hs hf.plain) false (fun h => by cases h)
  refine ⟨sm, h1, h2, h4, fun f hm => ?_⟩
  exact Option.isSome_iff_exists.1 ((h5 f.1).2 (by rw [he]; exact List.mem_map.2 ⟨f, hm, rfl⟩))

/-! ## The archive -/

/-- What the verifier sees of a file. -/
def IsFile (f : ZFile) (p : Bytes × Bytes) : Prop := f.name = p.1 ∧ f.isDir = false ∧ f.openOk = true ∧ f.attempts = [some p.2]

theorem HasFiles.mem {z : Zip1} {l : List (Bytes × Bytes)} (h : HasFiles z l) {f : ZFile} (hf : f ∈ z.zip.ordered) : ∃ p ∈ l, IsFile f p := by
  have := h.ordered.mem_iff.1 (List.mem_map.2 ⟨f, hf, rfl⟩)
  obtain ⟨p, hp, e⟩ := List.mem_map.1 this
  simp only [Prod.mk.injEq] at e
  exact ⟨p, hp, e.1.symm, e.2.1.symm, e.2.2.1.symm, e.2.2.2.symm⟩

theorem HasFiles.get {z : Zip1} {l : List (Bytes × Bytes)} (h : HasFiles z l) {p : Bytes × Bytes} (hp : p ∈ l) : ∃ f ∈ z.zip.ordered, IsFile f p := by
  have := h.ordered.mem_iff.2 (List.mem_map.2 ⟨p, hp, rfl⟩)
  obtain ⟨f, hf, e⟩ := List.mem_map.1 this
  simp only [Prod.mk.injEq] at e
  exact ⟨f, hf, e.1, e.2.1, e.2.2.1, e.2.2.2⟩

theorem HasFiles.names {z : Zip1} {l : List (Bytes × Bytes)} (h : HasFiles z l) (hn : (l.map (·.1)).Nodup) : (z.zip.ordered.map ZFile.name).Nodup := by
  have := (h.ordered.map (fun x => x.1)).nodup_iff.2 (by simpa [List.map_map, Function.comp_def] using hn)
  simpa [List.map_map, Function.comp_def] using this

theorem filter_name {l : List ZFile} (hn : (l.map ZFile.name).Nodup) {f : ZFile} (hf : f ∈ l) : l.filter (fun g => decide (g.name = f.name)) = [f] := by
  induction l with
  | nil => cases hf
  | cons x l ih =>
    rw [List.map_cons, List.nodup_cons] at hn
    rw [List.filter_cons]
    rcases List.mem_cons.1 hf with rfl | hf
    · rw [if_pos (by simp)]
      congr 1
      rw [List.filter_eq_nil_iff]
      intro g hg
      simp only [decide_eq_true_eq]
      intro e
      exact hn.1 (by rw [← e]; exact List.mem_map.2 ⟨g, hg, rfl⟩)
    · have hne : x.name ≠ f.name := fun e => hn.1 (by rw [e]; exact List.mem_map.2 ⟨f, hf, rfl⟩)
      rw [if_neg (by simp [hne])]
      exact ih hn.2 hf

theorem find_name {l : List ZFile} (hn : (l.map ZFile.name).Nodup) {f : ZFile} (hf : f ∈ l) : l.find? (fun g => decide (g.name = f.name)) = some f := by
  rw [← List.head?_filter, filter_name hn hf]; rfl

theorem HasFiles.find {z : Zip1} {l : List (Bytes × Bytes)} (h : HasFiles z l) (hn : (l.map (·.1)).Nodup) {f : ZFile} {k : Bytes} :
    z.zip.ordered.find? (fun g => decide (g.name = k)) = some f ↔ f ∈ z.zip.ordered ∧ f.name = k := by
  constructor
  · intro hf
    exact ⟨List.mem_of_find?_eq_some hf, by simpa using List.find?_some hf⟩
  · rintro ⟨hf, rfl⟩
    exact find_name (h.names hn) hf

/-! ## The files of the signatures -/

/-- Names of the files in META-INF. -/
def sfName (s : Signer) : Bytes := b!"META-INF/" ++ s.stem ++ b!".SF"
/-- Name of the block. -/
def blockName (s : Signer) : Bytes := b!"META-INF/" ++ s.stem ++ s.ext

theorem suffix_of_ends {x y a b : Bytes} (h : x ++ a = y ++ b) (hl : a.length ≤ b.length) : a <:+ b :=
  List.suffix_of_suffix_length_le (l₃ := x ++ a) (List.suffix_append _ _) (by rw [h]; exact List.suffix_append _ _) hl

/-- Different extensions do not end the same name. -/
theorem ext_unique {x y a b : Bytes} (h : x ++ a = y ++ b) (ha : BlockExt a ∨ a = b!".SF" ∨ a = b!".MF") (hb : BlockExt b ∨ b = b!".SF" ∨ b = b!".MF") : a = b := by
  have key : ∀ {x y a b : Bytes}, x ++ a = y ++ b → a.length ≤ b.length → (BlockExt a ∨ a = b!".SF" ∨ a = b!".MF") →
      (BlockExt b ∨ b = b!".SF" ∨ b = b!".MF") → a = b := by
    intro x y a b h hl ha hb
    have hs := suffix_of_ends h hl
    rcases ha with (rfl | rfl | rfl) | rfl | rfl <;> rcases hb with (rfl | rfl | rfl) | rfl | rfl <;> first | rfl | exact absurd hs (by decide)
  by_cases hl : a.length ≤ b.length
  · exact key h hl ha hb
  · exact (key h.symm (by omega) hb ha).symm

theorem blockName_inj {s s' : Signer} (h1 : BlockExt s.ext) (h2 : BlockExt s'.ext) (h : blockName s = blockName s') : s.stem = s'.stem := by
  unfold blockName at h
  have e := ext_unique h (.inl h1) (.inl h2)
  rw [e] at h
  exact List.append_cancel_left (List.append_cancel_right h)

theorem sfName_inj {s s' : Signer} (h : sfName s = sfName s') : s.stem = s'.stem :=
  List.append_cancel_left (List.append_cancel_right h)

theorem nodup_map_of_stems {ss : List Signer} {g : Signer → Bytes} (hn : (ss.map Signer.stem).Nodup)
    (hg : ∀ s ∈ ss, ∀ s' ∈ ss, g s = g s' → s.stem = s'.stem) : (ss.map g).Nodup := by
  induction ss with
  | nil => exact List.nodup_nil
  | cons s ss ih =>
    rw [List.map_cons, List.nodup_cons] at hn ⊢
    refine ⟨?_, ih hn.2 fun x hx y hy => hg x (List.mem_cons_of_mem _ hx) y (List.mem_cons_of_mem _ hy)⟩
    intro hm
    obtain ⟨x, hx, e⟩ := List.mem_map.1 hm
    have := hg x (List.mem_cons_of_mem _ hx) s (List.mem_cons_self ..) e
    exact hn.1 (by rw [← this]; exact List.mem_map.2 ⟨x, hx, rfl⟩)

theorem contents_mem {env : Env1} {t : TextCode env} {a : JarAlg} {tool : Bytes} {fs : List (Bytes × Bytes)} {ss : List Signer} {p : Bytes × Bytes} :
    p ∈ contents t a tool fs ss ↔ p ∈ fs ∨ p = (b!"META-INF/MANIFEST.MF", (manifest t a tool fs).bytes) ∨
      (∃ s ∈ ss, p = (sfName s, (signatureFile t a tool fs s).bytes)) ∨ ∃ s ∈ ss, p = (blockName s, s.block) := by
  unfold contents
  simp only [List.mem_append, List.mem_cons, List.mem_map, sfName, blockName]
  constructor
  · rintro ((h | h | ⟨s, h1, rfl⟩) | ⟨s, h1, rfl⟩)
    · exact .inl h
    · exact .inr (.inl h)
    · exact .inr (.inr (.inl ⟨s, h1, rfl⟩))
    · exact .inr (.inr (.inr ⟨s, h1, rfl⟩))
  · rintro (h | h | ⟨s, h1, rfl⟩ | ⟨s, h1, rfl⟩)
    · exact .inl (.inl h)
    · exact .inl (.inr (.inl h))
    · exact .inl (.inr (.inr ⟨s, h1, rfl⟩))
    · exact .inr ⟨s, h1, rfl⟩

theorem manifest_name : (b!"META-INF/MANIFEST.MF") = b!"META-INF/MANIFEST" ++ b!".MF" := by decide
theorem metaInf_prefix (x y : Bytes) : (b!"META-INF/") <+: b!"META-INF/" ++ x ++ y := ⟨x ++ y, by simp⟩

theorem contents_nodup {env : Env1} {t : TextCode env} {a : JarAlg} {tool : Bytes} {fs : List (Bytes × Bytes)} {ss : List Signer} (hf : FilesOk fs)
    (hn : (ss.map Signer.stem).Nodup) (he : ∀ s ∈ ss, BlockExt s.ext) : ((contents t a tool fs ss).map (·.1)).Nodup := by
  have e : (contents t a tool fs ss).map (·.1) = fs.map (·.1) ++ b!"META-INF/MANIFEST.MF" :: ss.map sfName ++ ss.map blockName := by
    simp only [contents, List.map_append, List.map_cons, List.map_map]
    rfl
  rw [e, List.nodup_append, List.nodup_append, List.nodup_cons]
  refine ⟨⟨hf.distinct, ⟨?_, nodup_map_of_stems hn fun s _ s' _ h => sfName_inj h⟩, ?_⟩, nodup_map_of_stems hn fun s hs s' hs' h => blockName_inj (he s hs) (he s' hs') h, ?_⟩
  · intro hm
    obtain ⟨s, hs, e⟩ := List.mem_map.1 hm
    unfold sfName at e
    rw [manifest_name] at e
    exact absurd (ext_unique e (.inr (.inl rfl)) (.inr (.inr rfl))) (by decide)
  · intro x hx y hy hxy
    subst hxy
    obtain ⟨f, hf', rfl⟩ := List.mem_map.1 hx
    rcases List.mem_cons.1 hy with hy | hy
    · exact (hf.unsigned f hf' (by rw [hy]; decide)).1 hy
    · obtain ⟨s, hs, e⟩ := List.mem_map.1 hy
      exact (hf.unsigned f hf' (by rw [← e]; exact metaInf_prefix _ _)).2 _ (.inr rfl) (by rw [← e]; exact List.suffix_append _ _)
  · intro x hx y hy hxy
    subst hxy
    obtain ⟨s, hs, e⟩ := List.mem_map.1 hy
    rcases List.mem_append.1 hx with hx | hx
    · obtain ⟨f, hf', rfl⟩ := List.mem_map.1 hx
      exact (hf.unsigned f hf' (by rw [← e]; exact metaInf_prefix _ _)).2 _ (.inl (he s hs)) (by rw [← e]; exact List.suffix_append _ _)
    · rcases List.mem_cons.1 hx with hx | hx
      · unfold blockName at e
        rw [hx, manifest_name] at e
        have := ext_unique e (.inl (he s hs)) (.inr (.inr rfl))
        rcases he s hs with h | h | h <;> rw [h] at this <;> exact absurd this (by decide)
      · obtain ⟨s', hs', e'⟩ := List.mem_map.1 hx
        unfold blockName at e
        unfold sfName at e'
        rw [← e'] at e
        have := ext_unique e (.inl (he s hs)) (.inr (.inl rfl))
        rcases he s hs with h | h | h <;> rw [h] at this <;> exact absurd this (by decide)

end Apk.Jar
