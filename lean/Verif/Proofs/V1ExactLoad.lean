import Verif.Proofs.V1Exact
/-! # Exact characterisation of v1 verification: loading -/
namespace Apk

theorem p7Parse_iff {env : Env1} {d : Bytes} {p : P7} : p7Parse env d = .ok (some p) ↔ IsBlockData env d p := by
  unfold p7Parse IsBlockData
  constructor
  · intro h
    split at h
    · cases h
    split at h
    · cases h
    · cases h
    · rename_i der hd
      exact ⟨der, hd, Except.ok.inj h⟩
  · rintro ⟨der, h1, h2⟩
    have : d ≠ [] := by rintro rfl; cases h1
    rw [if_neg this, h1]
    simp only [h2]

theorem p7Parse_none {env : Env1} {d : Bytes} : p7Parse env d = .ok none ↔ NoBlockData env d := by
  unfold p7Parse NoBlockData
  constructor
  · intro h
    split at h
    · rename_i h0; exact .inl h0
    split at h
    · cases h
    · rename_i e he; exact .inr (.inl ⟨e, he⟩)
    · rename_i der hd
      exact .inr (.inr ⟨der, hd, Except.ok.inj h⟩)
  · intro h
    split
    · rfl
    rename_i h0
    rcases h with h | ⟨e, h⟩ | ⟨der, h1, h2⟩
    · exact absurd h h0
    · rw [h]
    · rw [h1]
      simp only [h2]

/-- First-copy reading, for any parser. -/
theorem firstCopy_cons_none {α : Type} {good : Bytes → α → Prop} {bad : Bytes → Prop} {as : List (Option Bytes)} {v : α} :
    (∃ pre d post, none :: as = pre ++ some d :: post ∧ good d v ∧ ∀ x, some x ∈ pre → bad x) ↔
      ∃ pre d post, as = pre ++ some d :: post ∧ good d v ∧ ∀ x, some x ∈ pre → bad x := by
  constructor
  · rintro ⟨pre, d, post, h, h1, h2⟩
    cases pre with
    | nil => cases h
    | cons a pre =>
      cases h
      exact ⟨pre, d, post, rfl, h1, fun x hx => h2 x (List.mem_cons_of_mem _ hx)⟩
  · rintro ⟨pre, d, post, rfl, h1, h2⟩
    refine ⟨none :: pre, d, post, rfl, h1, fun x hx => ?_⟩
    rcases List.mem_cons.1 hx with hx | hx
    · cases hx
    · exact h2 x hx

theorem firstCopy_cons_bad {α : Type} {good : Bytes → α → Prop} {bad : Bytes → Prop} {as : List (Option Bytes)} {v : α} {y : Bytes}
    (hb : bad y) (hg : ∀ v, ¬ good y v) :
    (∃ pre d post, some y :: as = pre ++ some d :: post ∧ good d v ∧ ∀ x, some x ∈ pre → bad x) ↔
      ∃ pre d post, as = pre ++ some d :: post ∧ good d v ∧ ∀ x, some x ∈ pre → bad x := by
  constructor
  · rintro ⟨pre, d, post, h, h1, h2⟩
    cases pre with
    | nil => cases h; exact absurd h1 (hg v)
    | cons a pre =>
      cases h
      exact ⟨pre, d, post, rfl, h1, fun x hx => h2 x (List.mem_cons_of_mem _ hx)⟩
  · rintro ⟨pre, d, post, rfl, h1, h2⟩
    refine ⟨some y :: pre, d, post, rfl, h1, fun x hx => ?_⟩
    rcases List.mem_cons.1 hx with hx | hx
    · cases hx; exact hb
    · exact h2 x hx

theorem firstCopy_cons_notBad {α : Type} {good : Bytes → α → Prop} {bad : Bytes → Prop} {as : List (Option Bytes)} {v : α} {y : Bytes}
    (hb : ¬ bad y) :
    (∃ pre d post, some y :: as = pre ++ some d :: post ∧ good d v ∧ ∀ x, some x ∈ pre → bad x) ↔ good y v := by
  constructor
  · rintro ⟨pre, d, post, h, h1, h2⟩
    cases pre with
    | nil => cases h; exact h1
    | cons a pre => cases h; exact absurd (h2 y (List.mem_cons_self)) hb
  · intro h
    exact ⟨[], y, as, rfl, h, by simp⟩

theorem p7Attempts_iff {env : Env1} {as : List (Option Bytes)} {p : P7} : p7Attempts env as = .ok (some p) ↔
    ∃ pre d post, as = pre ++ some d :: post ∧ IsBlockData env d p ∧ ∀ x, some x ∈ pre → NoBlockData env x := by
  induction as with
  | nil => simp [p7Attempts]
  | cons a as ih =>
    cases a with
    | none => rw [p7Attempts, firstCopy_cons_none]; exact ih
    | some raw =>
      rw [p7Attempts]
      split
      · rename_i q hq
        rw [firstCopy_cons_notBad (by rw [← p7Parse_none, hq]; simp), ← p7Parse_iff, hq]
      · rename_i hq
        rw [firstCopy_cons_bad (p7Parse_none.1 hq) (fun v => by rw [← p7Parse_iff, hq]; simp)]
        exact ih
      · rename_i b hq
        rw [firstCopy_cons_notBad (by rw [← p7Parse_none, hq]; simp), ← p7Parse_iff, hq]

theorem loadBlock_iff {env : Env1} {f : ZFile} {p : P7} : loadBlock env f = .ok (some p) ↔ FirstCopy (IsBlockData env) (NoBlockData env) f p := by
  unfold loadBlock FirstCopy
  cases f.openOk with
  | false => simp
  | true => simp only [if_true, true_and]; exact p7Attempts_iff

theorem parseAttempts_iff {wc : Bool} {as : List (Option Bytes)} {e : ME} {m : Manifest} : parseAttempts wc as e = .ok (.ok m) ↔
    ∃ pre d post, as = pre ++ some d :: post ∧ IsManifest wc d m ∧ ∀ x, some x ∈ pre → NoManifest wc x := by
  induction as generalizing e with
  | nil => simp [parseAttempts]
  | cons a as ih =>
    cases a with
    | none => rw [parseAttempts, firstCopy_cons_none]; exact ih
    | some raw =>
      rw [parseAttempts]
      split
      · rename_i q hq
        rw [firstCopy_cons_notBad (by unfold NoManifest; rw [hq]; simp)]
        unfold IsManifest; rw [hq]
      · rename_i e' hq
        rw [firstCopy_cons_bad (show NoManifest wc raw from ⟨e', hq⟩) (fun v => by unfold IsManifest; rw [hq]; simp)]
        exact ih
      · rename_i b hq
        rw [firstCopy_cons_notBad (by unfold NoManifest; rw [hq]; simp)]
        unfold IsManifest; rw [hq]

theorem parseAttempts_none {wc : Bool} {as : List (Option Bytes)} {e : ME} : (∃ e', parseAttempts wc as e = .ok (.error e')) ↔
    ∀ x, some x ∈ as → NoManifest wc x := by
  induction as generalizing e with
  | nil => simp [parseAttempts]
  | cons a as ih =>
    cases a with
    | none =>
      rw [parseAttempts, ih]
      simp
    | some raw =>
      simp only [List.mem_cons, Option.some.injEq, forall_eq_or_imp]
      rw [parseAttempts]
      split
      · rename_i q hq
        simp [NoManifest, hq]
      · rename_i e' hq
        rw [ih]
        simp [NoManifest, hq]
      · rename_i b hq
        simp [NoManifest, hq]

theorem parseManifest_iff {wc : Bool} {f : ZFile} {m : Manifest} : parseManifest f wc = .ok (.ok m) ↔ FirstCopy (IsManifest wc) (NoManifest wc) f m := by
  unfold parseManifest FirstCopy
  cases f.openOk with
  | false => simp
  | true => simp only [if_true, true_and]; exact parseAttempts_iff

theorem parseManifest_none {wc : Bool} {f : ZFile} : (∃ e, parseManifest f wc = .ok (.error e)) ↔ NoCopy (NoManifest wc) f := by
  unfold parseManifest NoCopy
  cases f.openOk with
  | false => simp
  | true =>
    simp only [if_true, Bool.true_eq_false, false_or]
    exact parseAttempts_none

/-! ## Scanning succeeds -/

theorem scanFiles_succ {fs : List ZFile} {s : Scan} {f : ZFile} {m : Manifest}
    (h : (fs.filter (fun g => decide (g.name = b!"META-INF/MANIFEST.MF")) = [] ∨
      (s.manifest = none ∧ fs.filter (fun g => decide (g.name = b!"META-INF/MANIFEST.MF")) = [f] ∧ parseManifest f true = .ok (.ok m)))) :
    ∃ s', scanFiles fs s = .ok (.ok s') := by
  induction fs generalizing s with
  | nil => exact ⟨s, rfl⟩
  | cons g fs ih =>
    rw [List.filter_cons] at h
    unfold scanFiles
    by_cases hn : g.name = b!"META-INF/MANIFEST.MF"
    · rw [if_pos (by simpa using hn)] at h
      rcases h with h | ⟨h1, h2, h3⟩
      · cases h
      obtain ⟨rfl, h4⟩ := List.cons.inj h2
      rw [if_neg (by rw [hn]; decide), if_pos hn, if_neg (by rw [h1]; simp), h3]
      simp only
      exact ih (.inl h4)
    · rw [if_neg (by simpa using hn)] at h
      split
      · exact ih h
      split
      · exact ih h
      split
      · split
        · exact ih h
        · exact ih h
      · exact ih h

/-! ## Pairing -/

/-- The signature loaded from a block. -/
def sigOf (env : Env1) (sfs : List (Bytes × ZFile)) (f : ZFile) : Option (Bytes × Sig1) :=
  match mget sfs (pairName f) with
  | none => none
  | some sf =>
    match loadBlock env f, parseManifest sf false with
    | .ok (some p), .ok (.ok m) => some (sigPrefix f.name, ⟨some p, some m⟩)
    | .ok (some p), .ok (.error _) => some (sigPrefix f.name, ⟨some p, none⟩)
    | _, _ => none

/-- What loading needs of a block. -/
def Loads (env : Env1) (sfs : List (Bytes × ZFile)) (f : ZFile) : Prop :=
  ∀ sf, mget sfs (pairName f) = some sf → (∃ p, loadBlock env f = .ok (some p)) ∧ ∃ r, parseManifest sf false = .ok r

theorem mset_absent {ν : Type} {m : List (Bytes × ν)} {k : Bytes} {v : ν} (h : mget m k = none) : mset m k v = m ++ [(k, v)] := by
  induction m with
  | nil => rfl
  | cons p ps ih =>
    rw [mget_cons] at h
    split at h
    · cases h
    · rename_i hn
      rw [mset, if_neg hn, ih h]
      rfl

theorem mset_twice {ν : Type} {m : List (Bytes × ν)} {k : Bytes} {v w : ν} (h : mget m k = none) : mset (m ++ [(k, v)]) k w = m ++ [(k, w)] := by
  induction m with
  | nil => simp [mset]
  | cons p ps ih =>
    rw [mget_cons] at h
    split at h
    · cases h
    · rename_i hn
      rw [List.cons_append, mset, if_neg hn, ih h]
      rfl

theorem mget_snoc {ν : Type} {m : List (Bytes × ν)} {k k' : Bytes} {v : ν} : mget (m ++ [(k, v)]) k' = (mget m k').or (if k = k' then some v else none) := by
  induction m with
  | nil => simp [mget_cons]
  | cons p ps ih =>
    rw [List.cons_append, mget_cons, mget_cons]
    split
    · rfl
    · exact ih

theorem loadBlocks_exact {env : Env1} {blocks : List ZFile} {sfs : List (Bytes × ZFile)} {sigs sigs' : List (Bytes × Sig1)}
    (hb : ∀ f ∈ blocks, IsBlock f)
    (hinj : blocks.Pairwise (fun f g => (mget sfs (pairName f)).isSome = true → (mget sfs (pairName g)).isSome = true → sigPrefix f.name ≠ sigPrefix g.name))
    (hfresh : ∀ f ∈ blocks, (mget sfs (pairName f)).isSome = true → mget sigs (sigPrefix f.name) = none) :
    loadBlocks env blocks sfs sigs = .ok (.ok sigs') ↔ (∀ f ∈ blocks, Loads env sfs f) ∧ sigs' = sigs ++ blocks.filterMap (sigOf env sfs) := by
  induction blocks generalizing sfs sigs with
  | nil =>
    simp only [loadBlocks, Except.ok.injEq, List.not_mem_nil, false_implies, implies_true, true_and, List.filterMap_nil, List.append_nil]
    exact eq_comm
  | cons f fs ih =>
    have hb' : ∀ g ∈ fs, IsBlock g := fun g hg => hb g (List.mem_cons_of_mem _ hg)
    obtain ⟨hpre, base, ext, hext, hname⟩ := hb f List.mem_cons_self
    have hdrop : dropExt f.name = base := by rw [hname]; exact hext.dropExt base
    have hp1 : sigPrefix f.name = baseName base := by rw [hname]; exact sigPrefix_ext (.inl hext) base
    have hp2 : sigPrefix (base ++ b!".SF") = baseName base := sigPrefix_ext (.inr rfl) base
    rw [List.pairwise_cons] at hinj
    have hpn : pairName f = base ++ b!".SF" := by unfold pairName; rw [hdrop]
    have hfr' : ∀ g ∈ fs, (mget sfs (pairName g)).isSome = true → mget sigs (sigPrefix g.name) = none :=
      fun g hg => hfresh g (List.mem_cons_of_mem _ hg)
    rw [List.forall_mem_cons]
    unfold loadBlocks
    simp only [hdrop, hp1, hp2]
    cases hsf : mget sfs (base ++ b!".SF") with
    | none =>
      simp only
      have e : sigOf env sfs f = none := by unfold sigOf; rw [hpn, hsf]
      have hl : Loads env sfs f := by intro sf h; rw [hpn, hsf] at h; cases h
      rw [ih hb' hinj.2 hfr', List.filterMap_cons_none e]
      simp only [hl, true_and]
    | some sf =>
      simp only
      have hsome : (mget sfs (pairName f)).isSome = true := by rw [hpn, hsf]; rfl
      have hnone : mget sigs (baseName base) = none := by rw [← hp1]; exact hfresh f List.mem_cons_self hsome
      have hne : ∀ g ∈ fs, (mget sfs (pairName g)).isSome = true → baseName base ≠ sigPrefix g.name := by
        intro g hg hs; rw [← hp1]; exact hinj.1 g hg hsome hs
      have hpair : ∀ g ∈ fs, (mget sfs (pairName g)).isSome = true → pairName g ≠ base ++ b!".SF" := by
        intro g hg hs e
        apply hne g hg hs
        obtain ⟨_, base', ext', hext', hname'⟩ := hb' g hg
        unfold pairName at e
        rw [hname', hext'.dropExt] at e
        rw [hname', sigPrefix_ext (.inl hext'), List.append_cancel_right e]
      cases hl : loadBlock env f with
      | error p =>
        simp only
        constructor
        · intro h; cases h
        · rintro ⟨⟨h, _⟩, _⟩
          obtain ⟨⟨p, hp⟩, _⟩ := h sf (by rw [hpn, hsf])
          rw [hl] at hp; cases hp
      | ok o =>
        cases o with
        | none =>
          simp only
          constructor
          · intro h; cases h
          · rintro ⟨⟨h, _⟩, _⟩
            obtain ⟨⟨p, hp⟩, _⟩ := h sf (by rw [hpn, hsf])
            rw [hl] at hp; cases hp
        | some p =>
          simp only
          rw [hnone, Option.getD_none, mset_absent hnone, mget_snoc, hnone, if_pos rfl, Option.none_or, Option.getD_some]
          cases hm : parseManifest sf false with
          | error q =>
            simp only
            constructor
            · intro h; cases h
            · rintro ⟨⟨h, _⟩, _⟩
              obtain ⟨_, r, hr⟩ := h sf (by rw [hpn, hsf])
              rw [hm] at hr; cases hr
          | ok r =>
            have hload : Loads env sfs f := by
              intro sf' h
              rw [hpn, hsf] at h
              cases h
              exact ⟨⟨p, hl⟩, r, hm⟩
            cases r with
            | error e =>
              simp only
              have es : sigOf env sfs f = some (baseName base, ⟨some p, none⟩) := by
                unfold sigOf; rw [hpn, hsf]; simp only [hl, hm, hp1]
              rw [mset_twice hnone, ih hb' hinj.2 ?_, List.filterMap_cons_some es]
              · simp only [hload, true_and, List.append_assoc, List.singleton_append]
              · intro g hg hs
                rw [mget_snoc, hfr' g hg hs, if_neg (hne g hg hs)]
                rfl
            | ok m =>
              simp only
              have es : sigOf env sfs f = some (baseName base, ⟨some p, some m⟩) := by
                unfold sigOf; rw [hpn, hsf]; simp only [hl, hm, hp1]
              have hsame : ∀ g ∈ fs, mget (mdel sfs (base ++ b!".SF")) (pairName g) = mget sfs (pairName g) := by
                intro g hg
                rw [mget_mdel]
                split
                · rename_i e
                  cases hx : mget sfs (pairName g) with
                  | none => rfl
                  | some v => exact absurd e.symm (hpair g hg (by rw [hx]; rfl))
                · rfl
              have hfm : fs.filterMap (sigOf env (mdel sfs (base ++ b!".SF"))) = fs.filterMap (sigOf env sfs) := by
                have aux : ∀ {l : List ZFile}, (∀ g ∈ l, sigOf env (mdel sfs (base ++ b!".SF")) g = sigOf env sfs g) →
                    l.filterMap (sigOf env (mdel sfs (base ++ b!".SF"))) = l.filterMap (sigOf env sfs) := by
                  intro l
                  induction l with
                  | nil => intro _; rfl
                  | cons x xs ihx =>
                    intro h
                    rw [List.filterMap_cons, List.filterMap_cons, h x List.mem_cons_self, ihx (fun g hg => h g (List.mem_cons_of_mem _ hg))]
                apply aux
                intro g hg
                unfold sigOf
                rw [hsame g hg]
              rw [mset_twice hnone, ih hb' ?_ ?_, List.filterMap_cons_some es, hfm]
              · simp only [hload, true_and, List.append_assoc, List.singleton_append]
                have : (∀ g ∈ fs, Loads env (mdel sfs (base ++ b!".SF")) g) ↔ ∀ g ∈ fs, Loads env sfs g := by
                  constructor
                  · intro h g hg; have := h g hg; unfold Loads at this ⊢; rwa [hsame g hg] at this
                  · intro h g hg; have := h g hg; unfold Loads at this ⊢; rwa [hsame g hg]
                rw [this]
              · rw [List.pairwise_iff_forall_sublist] at *
                intro x y hxy hx hy
                rw [hsame x (hxy.subset List.mem_cons_self)] at hx
                rw [hsame y (hxy.subset (List.mem_cons_of_mem _ List.mem_cons_self))] at hy
                exact hinj.2 hxy hx hy
              · intro g hg hs
                rw [hsame g hg] at hs
                rw [mget_snoc, hfr' g hg hs, if_neg (hne g hg hs)]
                rfl

/-! ## The archive -/

theorem isBlock_base {f : ZFile} {base ext : Bytes} (hp : (b!"META-INF/") <+: f.name) (he : BlockExt ext) (hn : f.name = base ++ ext) :
    (b!"META-INF/") <+: base := by
  rw [hn] at hp
  rcases List.prefix_append_right_inj base |>.2 (List.nil_prefix) |> fun (_ : base ++ [] <+: base ++ ext) => List.prefix_or_prefix_of_prefix hp (List.prefix_append base ext) with h | h
  · exact h
  · obtain ⟨t, ht⟩ := h
    rw [← ht] at hp
    have ht' : t <+: ext := (List.prefix_append_right_inj base).1 hp
    cases t with
    | nil => rw [← ht]; simp
    | cons c t' =>
      exfalso
      have hlast : (47 : UInt8) ∈ c :: t' := by
        have : (base ++ c :: t').getLast? = some 47 := by rw [ht]; rfl
        rw [List.getLast?_append] at this
        have hne : (c :: t').getLast? = some 47 := by
          cases hx : (c :: t').getLast? with
          | none => simp at hx
          | some v => rw [hx] at this; exact this
        exact List.mem_of_getLast? hne
      have := ht'.subset hlast
      rcases he with rfl | rfl | rfl <;> revert this <;> decide

theorem dropExt_unique {f : ZFile} {base base' ext ext' : Bytes} (he : BlockExt ext) (he' : BlockExt ext') (hn : f.name = base ++ ext) (hn' : f.name = base' ++ ext') :
    base = base' := by
  rw [← he.dropExt base, ← hn, hn', he'.dropExt]

/-- The file that the loader pairs with a block. -/
theorem pair_iff {z : Zip1} {s : Scan} (hs : scanFiles z.zip.ordered {} = .ok (.ok s)) {fb fs : ZFile} :
    (fb ∈ s.blocks ∧ mget s.sfs (pairName fb) = some fs) ↔ SigPairOf z fb fs := by
  obtain ⟨c1, c2, c3⟩ := scanFiles_complete hs
  simp only [List.nil_append] at c1
  have hfind : ∀ {base : Bytes}, (b!"META-INF/") <+: base → mget s.sfs (base ++ b!".SF") = z.zip.ordered.find? (fun g => decide (g.name = base ++ b!".SF")) := by
    intro base hpre
    rw [c2]
    simp only [mget_nil, Option.none_or]
    congr 1
    funext f
    by_cases e : f.name = base ++ b!".SF"
    · rw [decide_eq_true e, Bool.and_true, e]
      unfold isSfName
      rw [Bool.and_eq_true]
      exact ⟨decide_eq_true (hpre.trans (List.prefix_append _ _)), decide_eq_true (List.suffix_append _ _)⟩
    · rw [decide_eq_false e, Bool.and_false]
  constructor
  · rintro ⟨h1, h2⟩
    rw [c1, List.mem_filter] at h1
    obtain ⟨hp, base, ext, he, hn⟩ := isBlockName_isBlock h1.2
    have hbase := isBlock_base hp he hn
    refine ⟨base, ext, h1.1, he, hbase, hn, ?_⟩
    rw [← hfind hbase]
    unfold pairName at h2
    rwa [hn, he.dropExt] at h2
  · rintro ⟨base, ext, h1, he, hbase, hn, hf⟩
    refine ⟨?_, ?_⟩
    · rw [c1, List.mem_filter]
      exact ⟨h1, isBlockName_of hbase he hn⟩
    · unfold pairName
      rw [hn, he.dropExt, hfind hbase, hf]

theorem blockStem_prefix {f : ZFile} {n : Bytes} (h : BlockStem f n) : n = sigPrefix f.name := by
  obtain ⟨dir, ext, hn, he, _, h47, hdir⟩ := h
  rw [hn, sigPrefix_ext (.inl he)]
  unfold baseName
  rw [List.reverse_append, takeWhile_append_all]
  · have : dir.reverse.takeWhile (fun c => decide (c ≠ 47)) = [] := by
      rcases hdir with rfl | hdir
      · rfl
      · rw [← List.head?_reverse] at hdir
        cases hd : dir.reverse with
        | nil => rfl
        | cons c t =>
          rw [hd] at hdir
          cases hdir
          rfl
    rw [this]
    simp
  · intro x hx
    have : x ≠ 47 := by rintro rfl; exact h47 (List.mem_reverse.1 hx)
    simpa using this

theorem sigs_pairwise {z : Zip1} {s : Scan} (hs : scanFiles z.zip.ordered {} = .ok (.ok s)) (hd : DistinctStems z) :
    (∀ f ∈ s.blocks, IsBlock f) ∧ s.blocks.Pairwise (fun f g => (mget s.sfs (pairName f)).isSome = true → (mget s.sfs (pairName g)).isSome = true →
      sigPrefix f.name ≠ sigPrefix g.name) := by
  obtain ⟨c1, c2, c3⟩ := scanFiles_complete hs
  simp only [List.nil_append] at c1
  have hb : ∀ f ∈ s.blocks, IsBlock f := by
    intro f hf
    rw [c1, List.mem_filter] at hf
    exact isBlockName_isBlock hf.2
  refine ⟨hb, ?_⟩
  have hd' : s.blocks.Pairwise (fun f g => ∀ s, BlockStem f s → ¬ BlockStem g s) := by
    rw [c1]; exact List.Pairwise.filter _ hd
  rw [List.pairwise_iff_forall_sublist] at hd' ⊢
  intro f g hfg _ _ e
  have h1 := hb f (hfg.subset List.mem_cons_self)
  have h2 := hb g (hfg.subset (List.mem_cons_of_mem _ List.mem_cons_self))
  exact hd' hfg _ (isBlock_stem h1) (e ▸ isBlock_stem h2)

theorem sigOf_ready {env : Env1} {z : Zip1} {s : Scan} (hs : scanFiles z.zip.ordered {} = .ok (.ok s)) {r : Ready} :
    r ∈ (s.blocks.filterMap (sigOf env s.sfs)).filterMap readySig ↔ TheSignature env z r := by
  rw [List.mem_filterMap]
  constructor
  · rintro ⟨x, hx, hr⟩
    obtain ⟨f, hf, hfx⟩ := List.mem_filterMap.1 hx
    obtain ⟨r1, r2, r3⟩ := readySig_some hr
    unfold sigOf at hfx
    split at hfx
    · cases hfx
    rename_i sf hsf
    split at hfx
    · rename_i p m hp hm
      cases hfx
      simp only [Option.some.injEq] at r1 r2 r3
      subst r2 r3
      have hbk : IsBlock f := by
        have := (scanFiles_complete hs).1
        simp only [List.nil_append] at this
        rw [this, List.mem_filter] at hf
        exact isBlockName_isBlock hf.2
      refine ⟨f, sf, (pair_iff hs).1 ⟨hf, hsf⟩, ?_, loadBlock_iff.1 hp, parseManifest_iff.1 hm⟩
      rw [← r1]
      exact isBlock_stem hbk
    · cases hfx
      cases r3
    · cases hfx
  · rintro ⟨fb, fs, hp, hst, h1, h2⟩
    obtain ⟨hb, hsf⟩ := (pair_iff hs).2 hp
    refine ⟨(r.name, ⟨some r.p7, some r.sm⟩), List.mem_filterMap.2 ⟨fb, hb, ?_⟩, rfl⟩
    unfold sigOf
    rw [hsf]
    simp only [loadBlock_iff.2 h1, parseManifest_iff.2 h2, blockStem_prefix hst]

/-- Loading succeeds exactly on archives with one manifest, readable pairs and a signature, and finds these. -/
theorem newSchemeV1_iff {env : Env1} {z : Zip1} (hd : DistinctStems z) {mf : Manifest} :
    (∃ sigs, newSchemeV1 env z = .ok (.ok (mf, sigs))) ↔ TheManifest z mf ∧ PairsReadable env z ∧ ∃ r, TheSignature env z r := by
  constructor
  · rintro ⟨sigs, h⟩
    unfold newSchemeV1 at h
    split at h
    · cases h
    · cases h
    rename_i s hs
    split at h
    · cases h
    · cases h
    rename_i sg hsg
    split at h
    · cases h
    rename_i m hm
    split at h
    · cases h
    rename_i hne
    simp only [Except.ok.injEq, Prod.mk.injEq] at h
    obtain ⟨rfl, rfl⟩ := h
    obtain ⟨hb, hpw⟩ := sigs_pairwise hs hd
    obtain ⟨hl, he⟩ := (loadBlocks_exact hb hpw (fun _ _ _ => rfl)).1 hsg
    simp only [List.nil_append] at he
    refine ⟨?_, ?_, ?_⟩
    · have hone := (scanFiles_complete hs).2.2
      unfold OneManifest at hone
      split at hone
      · rw [hm] at hone; cases hone
      · rename_i f hf
        obtain ⟨_, m', hm', hp⟩ := hone
        rw [hm] at hm'
        cases hm'
        exact ⟨f, hf, parseManifest_iff.1 hp⟩
      · exact hone.elim
    · intro fb fs hp
      obtain ⟨h1, h2⟩ := (pair_iff hs).2 hp
      obtain ⟨⟨p, h3⟩, r, h4⟩ := hl fb h1 fs h2
      refine ⟨⟨p, loadBlock_iff.1 h3⟩, ?_⟩
      cases r with
      | error e => exact .inr (parseManifest_none.1 ⟨e, h4⟩)
      | ok m => exact .inl ⟨m, parseManifest_iff.1 h4⟩
    · cases hr : sg.filterMap readySig with
      | nil => exact absurd hr hne
      | cons r rs =>
        refine ⟨r, (sigOf_ready hs).1 ?_⟩
        rw [← he, hr]
        exact List.mem_cons_self
  · rintro ⟨⟨f, hf, hm⟩, hp, r, hr⟩
    have hm' := parseManifest_iff.2 hm
    obtain ⟨s, hs⟩ := scanFiles_succ (s := {}) (.inr ⟨rfl, hf, hm'⟩)
    obtain ⟨hb, hpw⟩ := sigs_pairwise hs hd
    have hsg := (loadBlocks_exact (env := env) (sigs := []) (sigs' := s.blocks.filterMap (sigOf env s.sfs)) hb hpw (fun _ _ _ => rfl)).2 ⟨?_, rfl⟩
    · have hman : s.manifest = some mf := by
        have hone := (scanFiles_complete hs).2.2
        unfold OneManifest at hone
        rw [hf] at hone
        obtain ⟨_, m', h1, h2⟩ := hone
        rw [hm'] at h2
        cases h2
        exact h1
      refine ⟨(s.blocks.filterMap (sigOf env s.sfs)).filterMap readySig, ?_⟩
      unfold newSchemeV1
      rw [hs]
      simp only
      rw [hsg]
      simp only
      rw [hman]
      simp only
      rw [if_neg]
      intro e
      have := (sigOf_ready (env := env) hs).2 hr
      rw [e] at this
      cases this
    · intro fb hfb fs hfs
      obtain ⟨⟨p, h1⟩, h2⟩ := hp fb fs ((pair_iff hs).1 ⟨hfb, hfs⟩)
      refine ⟨⟨p, loadBlock_iff.2 h1⟩, ?_⟩
      rcases h2 with ⟨m, h2⟩ | h2
      · exact ⟨_, parseManifest_iff.2 h2⟩
      · obtain ⟨e, he⟩ := parseManifest_none.2 h2
        exact ⟨_, he⟩

theorem newSchemeV1_sigs {env : Env1} {z : Zip1} (hd : DistinctStems z) {mf : Manifest} {sigs : List Ready} (h : newSchemeV1 env z = .ok (.ok (mf, sigs))) :
    (∀ r, r ∈ sigs ↔ TheSignature env z r) ∧ (sigs.map Ready.name).Nodup := by
  refine ⟨?_, (newSchemeV1_sound h).2.2.2⟩
  unfold newSchemeV1 at h
  split at h
  · cases h
  · cases h
  rename_i s hs
  split at h
  · cases h
  · cases h
  rename_i sg hsg
  split at h
  · cases h
  rename_i m hm
  split at h
  · cases h
  rename_i hne
  simp only [Except.ok.injEq, Prod.mk.injEq] at h
  obtain ⟨rfl, rfl⟩ := h
  obtain ⟨hb, hpw⟩ := sigs_pairwise hs hd
  obtain ⟨hl, he⟩ := (loadBlocks_exact hb hpw (fun _ _ _ => rfl)).1 hsg
  simp only [List.nil_append] at he
  intro r
  rw [he]
  exact sigOf_ready hs

end Apk
