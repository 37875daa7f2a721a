import Verif.Proofs.V1Sig
/-! # Loading the signatures of the v1 scheme -/
namespace Apk

theorem dropWhile_append_stop {p : UInt8 → Bool} {a : Bytes} {c : UInt8} {b : Bytes} (ha : ∀ x ∈ a, p x = true) (hc : p c = false) :
    (a ++ c :: b).dropWhile p = c :: b := by
  induction a with
  | nil => simp [hc]
  | cons x a ih =>
    rw [List.cons_append, List.dropWhile_cons, ha x List.mem_cons_self]
    simp only [if_true]
    exact ih (fun y hy => ha y (List.mem_cons_of_mem _ hy))

theorem takeWhile_append_all {p : UInt8 → Bool} {a b : Bytes} (ha : ∀ x ∈ a, p x = true) :
    (a ++ b).takeWhile p = a ++ b.takeWhile p := by
  induction a with
  | nil => rfl
  | cons x a ih =>
    rw [List.cons_append, List.takeWhile_cons, ha x List.mem_cons_self]
    simp only [if_true]
    rw [ih (fun y hy => ha y (List.mem_cons_of_mem _ hy))]; rfl

theorem dropExt_append (b e : Bytes) (he : (46 : UInt8) ∉ e) : dropExt (b ++ 46 :: e) = b := by
  unfold dropExt
  rw [List.reverse_append, List.reverse_cons, List.append_assoc]
  rw [show ([46] : Bytes) ++ b.reverse = 46 :: b.reverse from rfl]
  rw [dropWhile_append_stop]
  · simp
  · intro x hx
    have : x ≠ 46 := by rintro rfl; exact he (List.mem_reverse.1 hx)
    simpa using this
  · simp

theorem baseName_append (b e : Bytes) (he : (47 : UInt8) ∉ e) : baseName (b ++ e) = baseName b ++ e := by
  unfold baseName
  rw [List.reverse_append, takeWhile_append_all]
  · simp
  · intro x hx
    have : x ≠ 47 := by rintro rfl; exact he (List.mem_reverse.1 hx)
    simpa using this

/-- The extensions of signature blocks. -/
theorem BlockExt.dropExt {ext : Bytes} (h : BlockExt ext) (b : Bytes) : dropExt (b ++ ext) = b := by
  rcases h with rfl | rfl | rfl <;> exact dropExt_append b _ (by decide)

theorem sigPrefix_ext {ext : Bytes} (h : BlockExt ext ∨ ext = b!".SF") (b : Bytes) : sigPrefix (b ++ ext) = baseName b := by
  unfold sigPrefix
  rw [baseName_append b ext (by rcases h with (rfl | rfl | rfl) | rfl <;> decide)]
  rcases h with h | rfl
  · exact h.dropExt _
  · exact dropExt_append _ _ (by decide)

theorem p7Attempts_some {env : Env1} {as : List (Option Bytes)} {p : P7} (h : p7Attempts env as = .ok (some p)) :
    ∃ raw der, some raw ∈ as ∧ ber2der raw = .ok (.ok der) ∧ env.parseP7 der = some p := by
  induction as with
  | nil => cases h
  | cons a as ih =>
    cases a with
    | none =>
      obtain ⟨raw, der, h1, h2⟩ := ih h
      exact ⟨raw, der, List.mem_cons_of_mem _ h1, h2⟩
    | some raw =>
      unfold p7Attempts at h
      split at h
      · cases h
      · obtain ⟨raw', der, h1, h2⟩ := ih h
        exact ⟨raw', der, List.mem_cons_of_mem _ h1, h2⟩
      · rename_i b hb
        simp only [Except.ok.injEq, Option.some.injEq] at h
        subst h
        unfold p7Parse at hb
        split at hb
        · cases hb
        split at hb
        · cases hb
        · cases hb
        rename_i der hder
        simp only [Except.ok.injEq] at hb
        exact ⟨raw, der, List.mem_cons_self, hder, hb⟩

theorem loadBlock_some {env : Env1} {f : ZFile} {p : P7} (h : loadBlock env f = .ok (some p)) :
    ∃ raw der, Copy f raw ∧ ber2der raw = .ok (.ok der) ∧ env.parseP7 der = some p := by
  unfold loadBlock at h
  split at h
  · rename_i ho
    obtain ⟨raw, der, h1, h2, h3⟩ := p7Attempts_some h
    exact ⟨raw, der, ⟨ho, h1⟩, h2, h3⟩
  · cases h

theorem parseAttempts_some {wc : Bool} {as : List (Option Bytes)} {e : ME} {m : Manifest} (h : parseAttempts wc as e = .ok (.ok m)) :
    ∃ d, some d ∈ as ∧ parseManifestData wc d = .ok (.ok m) := by
  induction as generalizing e with
  | nil => cases h
  | cons a as ih =>
    cases a with
    | none => obtain ⟨d, h1, h2⟩ := ih h; exact ⟨d, List.mem_cons_of_mem _ h1, h2⟩
    | some data =>
      unfold parseAttempts at h
      split at h
      · cases h
      · obtain ⟨d, h1, h2⟩ := ih h; exact ⟨d, List.mem_cons_of_mem _ h1, h2⟩
      · rename_i m' hm
        simp only [Except.ok.injEq] at h
        subst h
        exact ⟨data, List.mem_cons_self, hm⟩

theorem parseManifest_some {f : ZFile} {wc : Bool} {m : Manifest} (h : parseManifest f wc = .ok (.ok m)) :
    ∃ d, Copy f d ∧ parseManifestData wc d = .ok (.ok m) := by
  unfold parseManifest at h
  split at h
  · rename_i ho
    obtain ⟨d, h1, h2⟩ := parseAttempts_some h
    exact ⟨d, ⟨ho, h1⟩, h2⟩
  · cases h

/-- A file whose name makes it a signature block. -/
def IsBlock (f : ZFile) : Prop := (b!"META-INF/") <+: f.name ∧ ∃ base ext, BlockExt ext ∧ f.name = base ++ ext

/-- What the scan has found in the files `fs` is really there. -/
structure ScanOk (fs : List ZFile) (s : Scan) : Prop where
  manifest : ∀ m, s.manifest = some m → ∃ f ∈ fs, f.name = b!"META-INF/MANIFEST.MF" ∧ ∃ d, Copy f d ∧ parseManifestData true d = .ok (.ok m)
  blocks : ∀ f ∈ s.blocks, f ∈ fs ∧ IsBlock f
  sfs : ∀ p ∈ s.sfs, p.2 ∈ fs ∧ p.2.name = p.1

theorem scanFiles_ok {all fs : List ZFile} {s s' : Scan} (hsub : ∀ f ∈ fs, f ∈ all) (h0 : ScanOk all s)
    (h : scanFiles fs s = .ok (.ok s')) : ScanOk all s' := by
  induction fs generalizing s with
  | nil => simp only [scanFiles, Except.ok.injEq] at h; exact h ▸ h0
  | cons f fs ih =>
    have hsub' : ∀ g ∈ fs, g ∈ all := fun g hg => hsub g (List.mem_cons_of_mem _ hg)
    have hf := hsub f List.mem_cons_self
    unfold scanFiles at h
    split at h
    · exact ih hsub' h0 h
    rename_i hpre
    have hpre' : (b!"META-INF/") <+: f.name := by simpa [hasPrefix] using hpre
    split at h
    · rename_i hname
      split at h
      · cases h
      split at h
      · cases h
      · cases h
      rename_i m hm
      refine ih hsub' (s := { s with manifest := some m }) ⟨?_, h0.blocks, h0.sfs⟩ h
      intro m' hm'
      simp only [Option.some.injEq] at hm'
      subst hm'
      exact ⟨f, hf, hname, parseManifest_some hm⟩
    split at h
    · rename_i hext
      simp only [Bool.or_eq_true, hasSuffix, decide_eq_true_eq] at hext
      refine ih hsub' (s := { s with blocks := s.blocks ++ [f] }) ⟨h0.manifest, ?_, h0.sfs⟩ h
      intro g hg
      rcases List.mem_append.1 hg with hg | hg
      · exact h0.blocks g hg
      · rw [List.mem_singleton] at hg
        subst hg
        refine ⟨hf, hpre', ?_⟩
        rcases hext with (⟨b, hb⟩ | ⟨b, hb⟩) | ⟨b, hb⟩
        · exact ⟨b, _, .inl rfl, hb.symm⟩
        · exact ⟨b, _, .inr (.inl rfl), hb.symm⟩
        · exact ⟨b, _, .inr (.inr rfl), hb.symm⟩
    split at h
    · split at h
      · exact ih hsub' h0 h
      · refine ih hsub' (s := { s with sfs := mset s.sfs f.name f }) ⟨h0.manifest, h0.blocks, ?_⟩ h
        intro p hp
        rcases mem_mset' hp with rfl | hp
        · exact ⟨hf, rfl⟩
        · exact h0.sfs p hp
    · exact ih hsub' h0 h
where
  mem_mset' {m : List (Bytes × ZFile)} {k : Bytes} {v : ZFile} {p : Bytes × ZFile} (h : p ∈ mset m k v) : p = (k, v) ∨ p ∈ m := by
    induction m with
    | nil => simp only [mset, List.mem_singleton] at h; exact .inl h
    | cons q qs ih =>
      unfold mset at h
      split at h
      · rcases List.mem_cons.1 h with h | h
        · exact .inl h
        · exact .inr (List.mem_cons_of_mem _ h)
      · rcases List.mem_cons.1 h with h | h
        · exact .inr (h ▸ List.mem_cons_self)
        · rcases ih h with h | h
          · exact .inl h
          · exact .inr (List.mem_cons_of_mem _ h)

/-- The signatures loaded so far, by prefix. -/
structure SigsOk (env : Env1) (z : Zip1) (sigs : List (Bytes × Sig1)) : Prop where
  nodup : KeysNodup sigs
  pair : ∀ n s p m, mget sigs n = some s → s.block = some p → s.sm = some m → Signature env z p m

theorem loadBlocks_ok {env : Env1} {z : Zip1} {blocks : List ZFile} {sfs : List (Bytes × ZFile)} {sigs sigs' : List (Bytes × Sig1)}
    (hb : ∀ f ∈ blocks, f ∈ z.zip.ordered ∧ IsBlock f) (hs : ∀ p ∈ sfs, p.2 ∈ z.zip.ordered ∧ p.2.name = p.1)
    (h0 : SigsOk env z sigs) (h : loadBlocks env blocks sfs sigs = .ok (.ok sigs')) : SigsOk env z sigs' := by
  induction blocks generalizing sfs sigs with
  | nil => simp only [loadBlocks, Except.ok.injEq] at h; exact h ▸ h0
  | cons f fs ih =>
    have hb' : ∀ g ∈ fs, g ∈ z.zip.ordered ∧ IsBlock g := fun g hg => hb g (List.mem_cons_of_mem _ hg)
    obtain ⟨hf, hpre, base, ext, hext, hname⟩ := hb f List.mem_cons_self
    have hdrop : dropExt f.name = base := by rw [hname]; exact hext.dropExt base
    have hp1 : sigPrefix f.name = baseName base := by rw [hname]; exact sigPrefix_ext (.inl hext) base
    have hp2 : sigPrefix (base ++ b!".SF") = baseName base := sigPrefix_ext (.inr rfl) base
    unfold loadBlocks at h
    simp only [hdrop, hp1, hp2] at h
    split at h
    · exact ih hb' hs h0 h
    rename_i sf hsf
    split at h
    · cases h
    · cases h
    rename_i b hblk
    rw [mget_mset_self, Option.getD_some] at h
    split at h
    · cases h
    · refine ih hb' hs ⟨?_, ?_⟩ h
      · exact mset_nodup (mset_nodup h0.nodup _ _) _ _
      · intro n s p m hn hsb hsm
        rw [mget_mset] at hn
        split at hn
        · simp only [Option.some.injEq] at hn
          subst hn
          simp at hsm
        · rename_i hne
          rw [mget_mset, if_neg hne] at hn
          exact h0.pair n s p m hn hsb hsm
    · rename_i m' hm'
      obtain ⟨d, hc, hd⟩ := parseManifest_some hm'
      have hsfm := hs _ (mget_mem hsf)
      refine ih hb' ?_ ⟨?_, ?_⟩ h
      · intro p hp
        unfold mdel at hp
        exact hs p (List.mem_filter.1 hp).1
      · exact mset_nodup (mset_nodup h0.nodup _ _) _ _
      · intro n s p m hn hsb hsm
        rw [mget_mset] at hn
        split at hn
        · simp only [Option.some.injEq] at hn
          subst hn
          simp only [Option.some.injEq] at hsb hsm
          subst hsb hsm
          exact ⟨⟨f, sf, base, ext, hf, hsfm.1, hname, hsfm.2, hext, hpre, loadBlock_some hblk, d, hc, hd⟩⟩
        · rename_i hne
          rw [mget_mset, if_neg hne] at hn
          exact h0.pair n s p m hn hsb hsm

theorem readySig_some {x : Bytes × Sig1} {r : Ready} (h : readySig x = some r) :
    x.1 = r.name ∧ x.2.block = some r.p7 ∧ x.2.sm = some r.sm := by
  obtain ⟨n, ⟨b, m⟩⟩ := x
  cases b with
  | none => simp [readySig] at h
  | some p =>
    cases m with
    | none => simp [readySig] at h
    | some m =>
      simp only [readySig, Option.some.injEq] at h
      subst h; exact ⟨rfl, rfl, rfl⟩

theorem ready_names_nodup {sigs : List (Bytes × Sig1)} (h : KeysNodup sigs) : ((sigs.filterMap readySig).map Ready.name).Nodup := by
  unfold KeysNodup at h
  induction sigs with
  | nil => simp
  | cons x xs ih =>
    simp only [List.map_cons, List.nodup_cons] at h
    rw [List.filterMap_cons]
    split
    · exact ih h.2
    · rename_i r hr
      rw [List.map_cons, List.nodup_cons]
      refine ⟨?_, ih h.2⟩
      intro hm
      obtain ⟨r', hr', e⟩ := List.mem_map.1 hm
      obtain ⟨y, hy, hyr⟩ := List.mem_filterMap.1 hr'
      apply h.1
      rw [(readySig_some hr).1, ← e, ← (readySig_some hyr).1]
      exact List.mem_map.2 ⟨y, hy, rfl⟩

/-- The name of a signature file. -/
def isSfName (n : Bytes) : Bool :=
  hasPrefix n (b!"META-INF/") && hasSuffix n (b!".SF")

/-- The name of a signature block. -/
def isBlockName (n : Bytes) : Bool :=
  hasPrefix n (b!"META-INF/") && (hasSuffix n (b!".RSA") || hasSuffix n (b!".DSA") || hasSuffix n (b!".EC"))

theorem not_two_suffixes {n a b : Bytes} (ha : a <:+ n) (hb : b <:+ n) (hl : a.getLast? ≠ b.getLast?) (h1 : a ≠ []) (h2 : b ≠ []) : False := by
  obtain ⟨x, rfl⟩ := ha
  obtain ⟨y, hy⟩ := hb
  have e1 : (x ++ a).getLast? = a.getLast? := by
    rw [List.getLast?_append]
    cases h : a.getLast? with
    | none => exact absurd (List.getLast?_eq_none_iff.1 h) h1
    | some v => rfl
  have e2 : (y ++ b).getLast? = b.getLast? := by
    rw [List.getLast?_append]
    cases h : b.getLast? with
    | none => exact absurd (List.getLast?_eq_none_iff.1 h) h2
    | some v => rfl
  rw [hy, e1] at e2
  exact hl e2

theorem isSfName_block {n : Bytes} (h : hasSuffix n (b!".SF") = true) :
    (hasSuffix n (b!".RSA") || hasSuffix n (b!".DSA") || hasSuffix n (b!".EC")) = false := by
  refine Bool.eq_false_iff.2 (fun hc => ?_)
  simp only [Bool.or_eq_true, hasSuffix, decide_eq_true_eq] at hc h
  rcases hc with (hc | hc) | hc
  · exact not_two_suffixes hc h (by decide) (by decide) (by decide)
  · exact not_two_suffixes hc h (by decide) (by decide) (by decide)
  · exact not_two_suffixes hc h (by decide) (by decide) (by decide)

/-- The manifest part of the scan. -/
def OneManifest (fs : List ZFile) (o o' : Option Manifest) : Prop :=
  match fs.filter (fun g => decide (g.name = b!"META-INF/MANIFEST.MF")) with
  | [] => o' = o
  | [f] => o = none ∧ ∃ m, o' = some m ∧ parseManifest f true = .ok (.ok m)
  | _ => False

theorem scanFiles_complete {fs : List ZFile} {s s' : Scan} (h : scanFiles fs s = .ok (.ok s')) :
    s'.blocks = s.blocks ++ fs.filter (fun f => isBlockName f.name) ∧
    (∀ n, mget s'.sfs n = (mget s.sfs n).or (fs.find? (fun f => isSfName f.name && decide (f.name = n)))) ∧
    OneManifest fs s.manifest s'.manifest := by
  induction fs generalizing s with
  | nil =>
    simp only [scanFiles, Except.ok.injEq] at h
    subst h
    exact ⟨by simp, by simp, rfl⟩
  | cons f fs ih =>
    unfold scanFiles at h
    rw [List.filter_cons]
    have other : ∀ {n : Bytes}, isSfName f.name = false → (f :: fs).find? (fun f => isSfName f.name && decide (f.name = n)) =
        fs.find? (fun f => isSfName f.name && decide (f.name = n)) := by
      intro n hn
      rw [List.find?_cons, hn]; rfl
    have otherM : ∀ {o o' : Option Manifest}, f.name ≠ b!"META-INF/MANIFEST.MF" → OneManifest fs o o' → OneManifest (f :: fs) o o' := by
      intro o o' hn hh
      unfold OneManifest at *
      rw [List.filter_cons, if_neg (by simpa using hn)]
      exact hh
    split at h
    · rename_i hp
      obtain ⟨i1, i2, i3⟩ := ih h
      have hp' : hasPrefix f.name (b!"META-INF/") = false := by simpa using hp
      have hb : isBlockName f.name = false := by unfold isBlockName; rw [hp']; rfl
      have hs : isSfName f.name = false := by unfold isSfName; rw [hp']; rfl
      refine ⟨by rw [if_neg (by rw [hb]; simp)]; exact i1, fun n => by rw [i2, other hs], otherM ?_ i3⟩
      intro e
      rw [e] at hp'
      revert hp'
      decide
    rename_i hp
    have hp' : hasPrefix f.name (b!"META-INF/") = true := by simpa using hp
    split at h
    · rename_i hname
      have hb : isBlockName f.name = false := by rw [hname]; decide
      have hs : isSfName f.name = false := by rw [hname]; decide
      split at h
      · cases h
      rename_i hno
      split at h
      · cases h
      · cases h
      rename_i m hm
      obtain ⟨i1, i2, i3⟩ := ih h
      refine ⟨by rw [if_neg (by rw [hb]; simp)]; exact i1, fun n => by rw [i2, other hs], ?_⟩
      have hnone : s.manifest = none := by cases hx : s.manifest with
        | none => rfl
        | some v => rw [hx] at hno; simp at hno
      unfold OneManifest at *
      rw [List.filter_cons, if_pos (by simpa using hname)]
      split at i3
      · rename_i he
        rw [he]
        exact ⟨hnone, m, i3, hm⟩
      · cases i3.1
      · exact i3.elim
    rename_i hname
    split at h
    · rename_i hsuf
      obtain ⟨i1, i2, i3⟩ := ih h
      have hb : isBlockName f.name = true := by unfold isBlockName; rw [hp', hsuf]; rfl
      have hs : isSfName f.name = false := by
        refine Bool.eq_false_iff.2 (fun hc => ?_)
        unfold isSfName at hc
        rw [Bool.and_eq_true] at hc
        rw [isSfName_block hc.2] at hsuf
        cases hsuf
      refine ⟨by rw [if_pos (by rw [hb])]; rw [i1]; simp, fun n => by rw [i2, other hs], otherM hname i3⟩
    rename_i hsuf
    have hb : isBlockName f.name = false := by
      unfold isBlockName
      rw [Bool.not_eq_true] at hsuf
      rw [hsuf]; simp
    split at h
    · rename_i hsf
      have hs : isSfName f.name = true := by unfold isSfName; rw [hp', hsf]; rfl
      split at h
      · rename_i hex
        obtain ⟨i1, i2, i3⟩ := ih h
        refine ⟨by rw [if_neg (by rw [hb]; simp)]; exact i1, fun n => ?_, otherM hname i3⟩
        rw [i2, List.find?_cons, hs]
        by_cases hn : f.name = n
        · subst hn
          cases hg : mget s.sfs f.name with
          | none => rw [hg] at hex; simp at hex
          | some v => rfl
        · rw [decide_eq_false hn]; rfl
      · rename_i hex
        obtain ⟨i1, i2, i3⟩ := ih h
        refine ⟨by rw [if_neg (by rw [hb]; simp)]; exact i1, fun n => ?_, otherM hname i3⟩
        rw [i2, List.find?_cons, hs]
        dsimp only
        rw [mget_mset]
        by_cases hn : f.name = n
        · subst hn
          have : mget s.sfs f.name = none := by
            cases hg : mget s.sfs f.name with
            | none => rfl
            | some v => rw [hg] at hex; simp at hex
          rw [if_pos rfl, this]
          simp
        · rw [decide_eq_false hn, if_neg hn]; rfl
    · rename_i hsf
      obtain ⟨i1, i2, i3⟩ := ih h
      have hs : isSfName f.name = false := by
        unfold isSfName
        rw [Bool.not_eq_true] at hsf
        rw [hsf]; simp
      refine ⟨by rw [if_neg (by rw [hb]; simp)]; exact i1, fun n => by rw [i2, other hs], otherM hname i3⟩

/-- Loading finds only what is in the archive. -/
theorem newSchemeV1_sound {env : Env1} {z : Zip1} {mf : Manifest} {sigs : List Ready} (h : newSchemeV1 env z = .ok (.ok (mf, sigs))) :
    MainManifest z mf ∧ (∀ r ∈ sigs, Signature env z r.p7 r.sm) ∧ sigs ≠ [] ∧ (sigs.map Ready.name).Nodup := by
  unfold newSchemeV1 at h
  split at h
  · cases h
  · cases h
  rename_i s hs
  split at h
  · cases h
  · cases h
  rename_i sg hsg
  split at h
  · cases h
  rename_i m hm
  split at h
  · cases h
  rename_i hne
  simp only [Except.ok.injEq, Prod.mk.injEq] at h
  obtain ⟨rfl, rfl⟩ := h
  have hscan : ScanOk z.zip.ordered s := scanFiles_ok (fun f hf => hf)
    ⟨(fun m hm => by cases hm), (fun f hf => by cases hf), (fun p hp => by cases hp)⟩ hs
  have hok : SigsOk env z sg := loadBlocks_ok hscan.blocks hscan.sfs ⟨by simp [KeysNodup], (fun n s p m hn => by cases hn)⟩ hsg
  have hone := (scanFiles_complete hs).2.2
  refine ⟨?_, ?_, hne, ready_names_nodup hok.nodup⟩
  · unfold OneManifest at hone
    split at hone
    · rw [hm] at hone; cases hone
    · rename_i f hf
      obtain ⟨_, m', hm', hp⟩ := hone
      rw [hm] at hm'
      cases hm'
      obtain ⟨d, hc, hd⟩ := parseManifest_some hp
      exact ⟨f, d, hf, hc, hd⟩
    · exact hone.elim
  intro r hr
  obtain ⟨x, hx, hxr⟩ := List.mem_filterMap.1 hr
  obtain ⟨h1, h2, h3⟩ := readySig_some hxr
  exact hok.pair x.1 x.2 r.p7 r.sm (mget_of_mem hok.nodup hx) h2 h3

/-! ## Completeness of loading -/

/-- The file names paired by the loader. -/
def pairName (f : ZFile) : Bytes := dropExt f.name ++ b!".SF"

theorem loadBlocks_frame {env : Env1} {blocks : List ZFile} {sfs : List (Bytes × ZFile)} {sigs sigs' : List (Bytes × Sig1)}
    (hb : ∀ f ∈ blocks, IsBlock f) (h : loadBlocks env blocks sfs sigs = .ok (.ok sigs')) (n : Bytes)
    (hn : ∀ f ∈ blocks, (mget sfs (pairName f)).isSome = true → sigPrefix f.name ≠ n) : mget sigs' n = mget sigs n := by
  induction blocks generalizing sfs sigs with
  | nil => simp only [loadBlocks, Except.ok.injEq] at h; rw [h]
  | cons f fs ih =>
    have hb' : ∀ g ∈ fs, IsBlock g := fun g hg => hb g (List.mem_cons_of_mem _ hg)
    obtain ⟨hpre, base, ext, hext, hname⟩ := hb f List.mem_cons_self
    have hdrop : dropExt f.name = base := by rw [hname]; exact hext.dropExt base
    have hp1 : sigPrefix f.name = baseName base := by rw [hname]; exact sigPrefix_ext (.inl hext) base
    have hp2 : sigPrefix (base ++ b!".SF") = baseName base := sigPrefix_ext (.inr rfl) base
    have hn' : ∀ g ∈ fs, (mget sfs (pairName g)).isSome = true → sigPrefix g.name ≠ n := fun g hg => hn g (List.mem_cons_of_mem _ hg)
    unfold loadBlocks at h
    simp only [hdrop, hp1, hp2] at h
    split at h
    · exact ih hb' h hn'
    rename_i sf hsf
    have hne : baseName base ≠ n := by
      have := hn f List.mem_cons_self (by unfold pairName; rw [hdrop, hsf]; rfl)
      rwa [hp1] at this
    split at h
    · cases h
    · cases h
    split at h
    · cases h
    · rw [ih hb' h hn', mget_mset, if_neg hne, mget_mset, if_neg hne]
    · rw [ih hb' h ?_, mget_mset, if_neg hne, mget_mset, if_neg hne]
      intro g hg hs
      rw [mget_mdel] at hs
      split at hs
      · cases hs
      · exact hn' g hg hs

theorem loadBlocks_complete {env : Env1} {blocks : List ZFile} {sfs : List (Bytes × ZFile)} {sigs sigs' : List (Bytes × Sig1)}
    (hb : ∀ f ∈ blocks, IsBlock f) (h : loadBlocks env blocks sfs sigs = .ok (.ok sigs'))
    (hinj : blocks.Pairwise (fun f g => (mget sfs (pairName f)).isSome = true → (mget sfs (pairName g)).isSome = true → sigPrefix f.name ≠ sigPrefix g.name))
    {f sf : ZFile} {m : Manifest} (hf : f ∈ blocks) (hsf : mget sfs (pairName f) = some sf) (hm : parseManifest sf false = .ok (.ok m)) :
    ∃ p, loadBlock env f = .ok (some p) ∧ ∃ s, mget sigs' (sigPrefix f.name) = some s ∧ s.block = some p ∧ s.sm = some m := by
  induction blocks generalizing sfs sigs with
  | nil => cases hf
  | cons g fs ih =>
    have hb' : ∀ x ∈ fs, IsBlock x := fun x hx => hb x (List.mem_cons_of_mem _ hx)
    obtain ⟨hpre, base, ext, hext, hname⟩ := hb g List.mem_cons_self
    have hdrop : dropExt g.name = base := by rw [hname]; exact hext.dropExt base
    have hp1 : sigPrefix g.name = baseName base := by rw [hname]; exact sigPrefix_ext (.inl hext) base
    have hp2 : sigPrefix (base ++ b!".SF") = baseName base := sigPrefix_ext (.inr rfl) base
    rw [List.pairwise_cons] at hinj
    unfold loadBlocks at h
    simp only [hdrop, hp1, hp2] at h
    rcases List.mem_cons.1 hf with rfl | hf
    · have hsf' : mget sfs (base ++ b!".SF") = some sf := by unfold pairName at hsf; rwa [hdrop] at hsf
      rw [hsf'] at h
      simp only at h
      split at h
      · cases h
      · cases h
      rename_i p hp
      rw [hm] at h
      simp only at h
      rw [mget_mset_self, Option.getD_some] at h
      have := loadBlocks_frame hb' h (baseName base) (by
        intro x hx hs
        rw [mget_mdel] at hs
        split at hs
        · cases hs
        · have := hinj.1 x hx (by rw [hsf]; rfl) hs
          rw [hp1] at this
          exact fun e => this e.symm)
      rw [mget_mset_self] at this
      exact ⟨p, hp, _, by rw [hp1]; exact this, rfl, rfl⟩
    · split at h
      · exact ih hb' h hinj.2 hf hsf
      rename_i sg hsg
      split at h
      · cases h
      · cases h
      split at h
      · cases h
      · exact ih hb' h hinj.2 hf hsf
      · have hne : base ++ b!".SF" ≠ pairName f := by
          intro e
          have h1 := hinj.1 f hf (by unfold pairName; rw [hdrop, hsg]; rfl) (by rw [hsf]; rfl)
          apply h1
          rw [hp1]
          obtain ⟨_, base', ext', hext', hname'⟩ := hb' f hf
          unfold pairName at e
          rw [hname', hext'.dropExt] at e
          rw [hname', sigPrefix_ext (.inl hext'), List.append_cancel_right e]
        refine ih hb' h (hinj.2.imp ?_) hf (by rw [mget_mdel, if_neg hne]; exact hsf)
        intro x y hxy hx hy
        rw [mget_mdel] at hx hy
        split at hx
        · cases hx
        split at hy
        · cases hy
        exact hxy hx hy

theorem isBlockName_isBlock {f : ZFile} (h : isBlockName f.name = true) : IsBlock f := by
  unfold isBlockName at h
  simp only [Bool.and_eq_true, Bool.or_eq_true, hasPrefix, hasSuffix, decide_eq_true_eq] at h
  obtain ⟨h1, (h2 | h2) | h2⟩ := h
  · obtain ⟨b, hb⟩ := h2; exact ⟨h1, b, _, .inl rfl, hb.symm⟩
  · obtain ⟨b, hb⟩ := h2; exact ⟨h1, b, _, .inr (.inl rfl), hb.symm⟩
  · obtain ⟨b, hb⟩ := h2; exact ⟨h1, b, _, .inr (.inr rfl), hb.symm⟩

theorem isBlockName_of {n base ext : Bytes} (hp : (b!"META-INF/") <+: base) (he : BlockExt ext) (hn : n = base ++ ext) :
    isBlockName n = true := by
  unfold isBlockName
  simp only [Bool.and_eq_true, Bool.or_eq_true, hasPrefix, hasSuffix, decide_eq_true_eq]
  subst hn
  refine ⟨hp.trans (List.prefix_append _ _), ?_⟩
  rcases he with rfl | rfl | rfl
  · exact .inl (.inl (List.suffix_append _ _))
  · exact .inl (.inr (List.suffix_append _ _))
  · exact .inr (List.suffix_append _ _)

theorem baseName_split (n : Bytes) : ∃ dir, n = dir ++ baseName n ∧ 47 ∉ baseName n ∧ (dir = [] ∨ dir.getLast? = some 47) := by
  unfold baseName
  refine ⟨(n.reverse.dropWhile (fun c => c ≠ 47)).reverse, ?_, ?_, ?_⟩
  · rw [← List.reverse_append, List.takeWhile_append_dropWhile, List.reverse_reverse]
  · intro h
    have := List.mem_reverse.1 h
    have hall := List.all_takeWhile (p := fun c : UInt8 => decide (c ≠ 47)) (l := n.reverse)
    rw [List.all_eq_true] at hall
    have := hall _ this
    simp at this
  · rw [List.getLast?_reverse]
    cases hd : n.reverse.dropWhile (fun c => decide (c ≠ 47)) with
    | nil => left; rfl
    | cons c t =>
      right
      have h2 := List.head?_dropWhile_not (fun c : UInt8 => decide (c ≠ 47)) n.reverse
      rw [hd] at h2
      simp only [List.head?_cons] at h2
      rw [List.head?_cons]
      simp at h2
      rw [h2]

theorem isBlock_stem {f : ZFile} (h : IsBlock f) : BlockStem f (sigPrefix f.name) := by
  obtain ⟨hp, base, ext, he, hn⟩ := h
  obtain ⟨dir, h1, h2, h3⟩ := baseName_split base
  rw [hn, sigPrefix_ext (.inl he)]
  refine ⟨dir, ext, ?_, he, hp, h2, h3⟩
  rw [hn, ← h1]

/-- Loading finds every pair in the archive, if the stems are distinct. -/
theorem newSchemeV1_complete {env : Env1} {z : Zip1} {mf : Manifest} {sigs : List Ready} (h : newSchemeV1 env z = .ok (.ok (mf, sigs)))
    (hd : DistinctStems z) {fb fs : ZFile} (hp : SigPairOf z fb fs) {sm : Manifest} (hsm : parseManifest fs false = .ok (.ok sm)) :
    ∃ p7, loadBlock env fb = .ok (some p7) ∧ ∃ r ∈ sigs, r.p7 = p7 ∧ r.sm = sm := by
  obtain ⟨base, ext, hfb, hext, hpre, hname, hfs⟩ := hp
  unfold newSchemeV1 at h
  split at h
  · cases h
  · cases h
  rename_i s hs
  split at h
  · cases h
  · cases h
  rename_i sg hsg
  split at h
  · cases h
  rename_i m hm
  split at h
  · cases h
  rename_i hne
  simp only [Except.ok.injEq, Prod.mk.injEq] at h
  obtain ⟨rfl, rfl⟩ := h
  obtain ⟨c1, c2, c3⟩ := scanFiles_complete hs
  simp only [List.nil_append] at c1
  have hb : ∀ f ∈ s.blocks, IsBlock f := by
    intro f hf
    rw [c1, List.mem_filter] at hf
    exact isBlockName_isBlock hf.2
  have hmem : fb ∈ s.blocks := by
    rw [c1, List.mem_filter]
    exact ⟨hfb, isBlockName_of hpre hext hname⟩
  have hpn : pairName fb = base ++ b!".SF" := by unfold pairName; rw [hname, hext.dropExt]
  have hsf : mget s.sfs (pairName fb) = some fs := by
    rw [c2, hpn, ← hfs]
    simp only [mget_nil, Option.none_or]
    congr 1
    funext f
    by_cases e : f.name = base ++ b!".SF"
    · rw [decide_eq_true e, Bool.and_true, e]
      unfold isSfName
      rw [Bool.and_eq_true]
      exact ⟨decide_eq_true (hpre.trans (List.prefix_append _ _)), decide_eq_true (List.suffix_append _ _)⟩
    · rw [decide_eq_false e, Bool.and_false]
  have hinj : s.blocks.Pairwise (fun f g => (mget s.sfs (pairName f)).isSome = true → (mget s.sfs (pairName g)).isSome = true →
      sigPrefix f.name ≠ sigPrefix g.name) := by
    have hd' : s.blocks.Pairwise (fun f g => ∀ s, BlockStem f s → ¬ BlockStem g s) := by
      rw [c1]; exact List.Pairwise.filter _ hd
    rw [List.pairwise_iff_forall_sublist] at hd' ⊢
    intro f g hfg _ _ e
    have h1 := hb f (hfg.subset List.mem_cons_self)
    have h2 := hb g (hfg.subset (List.mem_cons_of_mem _ List.mem_cons_self))
    exact hd' hfg _ (isBlock_stem h1) (e ▸ isBlock_stem h2)
  obtain ⟨p, h1, sx, h2, h3, h4⟩ := loadBlocks_complete hb hsg hinj hmem hsf hsm
  refine ⟨p, h1, ⟨sigPrefix fb.name, p, sm⟩, ?_, rfl, rfl⟩
  rw [List.mem_filterMap]
  refine ⟨(sigPrefix fb.name, sx), mget_mem h2, ?_⟩
  obtain ⟨b, mm⟩ := sx
  simp only at h3 h4
  subst h3 h4
  rfl

end Apk
