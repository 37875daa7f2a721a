import Verif.Proofs.V1ExactLoad
import Verif.Proofs.V1Chains
/-! # Exact characterisation of v1 verification: the archive -/
namespace Apk

/-! ## The main attributes -/

theorem splitByte_no_sep {sep : UInt8} {l t : Bytes} (h : t ∈ splitByte sep l) : sep ∉ t := by
  obtain ⟨_, _, _, h, _⟩ := splitByte_mem_token h
  exact h

theorem splitByte_join (sep : UInt8) (l : Bytes) : [sep].intercalate (splitByte sep l) = l := by
  induction l with
  | nil => simp [splitByte, List.intercalate]
  | cons c l ih =>
    unfold splitByte
    split
    · rename_i h
      cases hs : splitByte sep l with
      | nil => exact absurd hs (splitByte_ne_nil _ _)
      | cons t ts =>
        rw [hs] at ih
        rw [List.intercalate_cons_cons, ih, h]
        rfl
    · split
      · rename_i hn; exact absurd hn (splitByte_ne_nil _ _)
      · rename_i t ts hs
        rw [hs] at ih
        cases ts with
        | nil => simp [List.intercalate] at ih ⊢; exact ih
        | cons u us =>
          rw [List.intercalate_cons_cons] at ih ⊢
          rw [List.append_assoc] at ih ⊢
          rw [List.cons_append, ih]

theorem splitByte_of_pieces {sep : UInt8} {text : Bytes} {l : List Bytes} (hne : l ≠ []) (hns : ∀ t ∈ l, sep ∉ t) (hj : [sep].intercalate l = text) :
    splitByte sep text = l := by
  induction l generalizing text with
  | nil => exact absurd rfl hne
  | cons t ts ih =>
    have ht := hns t List.mem_cons_self
    have aux : ∀ (t rest : Bytes), sep ∉ t → splitByte sep (t ++ sep :: rest) = t :: splitByte sep rest := by
      intro t rest
      induction t with
      | nil => intro _; simp [splitByte]
      | cons c t iht =>
        intro h
        rw [List.cons_append, splitByte, if_neg (by rintro rfl; exact h List.mem_cons_self), iht (fun hh => h (List.mem_cons_of_mem _ hh))]
    have aux0 : ∀ (t : Bytes), sep ∉ t → splitByte sep t = [t] := by
      intro t
      induction t with
      | nil => intro _; rfl
      | cons c t iht =>
        intro h
        rw [splitByte, if_neg (by rintro rfl; exact h List.mem_cons_self), iht (fun hh => h (List.mem_cons_of_mem _ hh))]
    cases ts with
    | nil =>
      simp [List.intercalate] at hj
      rw [← hj]
      exact aux0 t ht
    | cons u us =>
      rw [List.intercalate_cons_cons] at hj
      rw [← hj, List.append_assoc, List.singleton_append, aux t _ ht, ih (by simp) (fun x hx => hns x (List.mem_cons_of_mem _ hx)) rfl]

theorem pieces_iff {sep : UInt8} {text : Bytes} {l : List Bytes} : Pieces sep text l ↔ l = splitByte sep text := by
  constructor
  · rintro ⟨h1, h2, h3⟩
    exact (splitByte_of_pieces h1 h2 h3).symm
  · rintro rfl
    exact ⟨splitByte_ne_nil _ _, fun t ht => splitByte_no_sep ht, splitByte_join _ _⟩

theorem strongest1_none (attrs : Attrs) (suffix : Bytes) :
    digestAlgorithms.find? (fun a => (mget attrs (a ++ suffix)).isSome) = none ↔ ∀ a : JarAlg, ¬ HasDigest attrs suffix a.name := by
  rw [List.find?_eq_none]
  constructor
  · intro h a ha
    refine h a.name ?_ ((hasDigest_iff ..).2 ha)
    cases a <;> decide
  · intro h x hx hs
    have : ∃ a : JarAlg, a.name = x := by
      simp only [digestAlgorithms, List.mem_cons, List.not_mem_nil, or_false] at hx
      rcases hx with rfl | rfl | rfl | rfl
      · exact ⟨.sha512, rfl⟩
      · exact ⟨.sha384, rfl⟩
      · exact ⟨.sha256, rfl⟩
      · exact ⟨.sha1, rfl⟩
    obtain ⟨a, rfl⟩ := this
    exact h a ((hasDigest_iff ..).1 hs)

theorem inOrder_iff {env : Env1} {attrs : Attrs} {suffix : Bytes} {minSdk maxSdk : Int} {l : List Bytes} :
    InOrder env attrs suffix minSdk maxSdk l ↔ l = digestsToVerify env attrs suffix minSdk maxSdk := by
  have old_iff : ∀ {old : List Bytes}, (if minSdk < 18 then ∃ toks, Pieces 32 (listedAlgs env attrs) toks ∧
        old = toks.filter (fun n => decide ((9 ≤ minSdk ∨ (n ≠ JarAlg.name .sha384 ∧ n ≠ JarAlg.name .sha512)) ∧ (mget attrs (n ++ suffix)).isSome))
     else old = []) ↔ old = (if minSdk < 18 then
      let algs := env.toLower ((mget attrs (b!"digest-algorithms")).getD [])
      let algs := if algs = [] then b!"sha sha1" else algs
      (splitByte 32 algs).filter (fun a =>
        (decide (minSdk ≥ 9) || (decide (a ≠ b!"sha-384") && decide (a ≠ b!"sha-512"))) && (mget attrs (a ++ suffix)).isSome)
    else []) := by
    intro old
    split
    · have e : (fun n : Bytes => decide ((9 ≤ minSdk ∨ (n ≠ JarAlg.name .sha384 ∧ n ≠ JarAlg.name .sha512)) ∧ (mget attrs (n ++ suffix)).isSome)) =
          (fun a : Bytes => (decide (minSdk ≥ 9) || (decide (a ≠ b!"sha-384") && decide (a ≠ b!"sha-512"))) && (mget attrs (a ++ suffix)).isSome) := by
        funext n
        rw [Bool.eq_iff_iff]
        simp only [decide_eq_true_eq, Bool.and_eq_true, Bool.or_eq_true]
        exact Iff.rfl
      rw [e]
      constructor
      · rintro ⟨toks, ht, h⟩
        rw [h, pieces_iff.1 ht]
        rfl
      · intro h
        exact ⟨_, pieces_iff.2 rfl, h⟩
    · exact Iff.rfl
  have new_iff : ∀ {new : List Bytes}, (if 18 ≤ maxSdk then (new = [] ∧ ∀ a : JarAlg, ¬ HasDigest attrs suffix a.name) ∨
        ∃ a : JarAlg, new = [a.name] ∧ HasDigest attrs suffix a.name ∧ ∀ b : JarAlg, a.rank < b.rank → ¬ HasDigest attrs suffix b.name
     else new = []) ↔ new = (if maxSdk ≥ 18 then (digestAlgorithms.find? (fun a => (mget attrs (a ++ suffix)).isSome)).toList else []) := by
    intro new
    by_cases hm : 18 ≤ maxSdk
    · rw [if_pos hm, if_pos hm, ← strongest1_none]
      cases hf : digestAlgorithms.find? (fun a => (mget attrs (a ++ suffix)).isSome) with
      | none =>
        constructor
        · rintro (⟨h, _⟩ | ⟨a, _, h1, h2⟩)
          · exact h
          · rw [(strongest_iff ..).2 ⟨a, rfl, h1, h2⟩] at hf; cases hf
        · intro h; exact .inl ⟨h, rfl⟩
      | some n =>
        obtain ⟨a, hn, h1, h2⟩ := (strongest_iff ..).1 hf
        constructor
        · rintro (⟨_, h⟩ | ⟨b, h, h3, h4⟩)
          · cases h
          · rw [(strongest_iff ..).2 ⟨b, rfl, h3, h4⟩] at hf
            cases hf
            exact h
        · intro h
          exact .inr ⟨a, by rw [h, hn]; rfl, h1, h2⟩
    · rw [if_neg hm, if_neg hm]
  unfold InOrder digestsToVerify
  constructor
  · rintro ⟨old, new, rfl, h1, h2⟩
    rw [old_iff.1 h1, new_iff.1 h2]
  · intro h
    exact ⟨_, _, h, old_iff.2 rfl, new_iff.2 rfl⟩

/-- The loop over the digests ends without a wrong one: at the end or at an unknown algorithm. -/
theorem verifyDigests_known (env : Env1) (entry : Attrs) (suffix : Bytes) (verify : Bytes → (Bytes → Bytes) → Option EntE)
    (hv : ∀ h f, verify h f ≠ some .noKnownHashes) (l : List Bytes) :
    (verifyDigests env entry suffix verify l = none ∨ verifyDigests env entry suffix verify l = some .noKnownHashes) ↔
      ∃ pre post, l = pre ++ post ∧
        (∀ n ∈ pre, ∃ h f, env.base64 ((mget entry (n ++ suffix)).getD []) = some h ∧ hasherOf env n = some f ∧ verify h f = none) ∧
        (post = [] ∨ ∃ n rest, post = n :: rest ∧ (env.base64 ((mget entry (n ++ suffix)).getD [])).isSome ∧ hasherOf env n = none) := by
  induction l with
  | nil =>
    simp only [verifyDigests, reduceCtorEq, or_false, true_iff]
    exact ⟨[], [], rfl, by simp, .inl rfl⟩
  | cons a as ih =>
    unfold verifyDigests
    cases hb : env.base64 ((mget entry (a ++ suffix)).getD []) with
    | none =>
      simp only [reduceCtorEq, Option.some.injEq, or_self, false_iff]
      rintro ⟨pre, post, he, h1, h2⟩
      cases pre with
      | nil =>
        rw [List.nil_append] at he
        rcases h2 with h2 | ⟨n, rest, h2, h3, _⟩
        · rw [h2] at he; cases he
        · rw [h2] at he; cases he; rw [hb] at h3; cases h3
      | cons x xs =>
        cases he
        obtain ⟨h, f, h3, _⟩ := h1 a List.mem_cons_self
        rw [hb] at h3; cases h3
    | some d =>
      simp only
      cases hf : hasherOf env a with
      | none =>
        simp only [reduceCtorEq, false_or, true_iff]
        exact ⟨[], a :: as, rfl, by simp, .inr ⟨a, as, rfl, by rw [hb]; rfl, hf⟩⟩
      | some f =>
        simp only
        cases hvv : verify d f with
        | some e =>
          simp only [reduceCtorEq, Option.some.injEq, false_or]
          constructor
          · intro h; subst h; exact absurd hvv (hv d f)
          · rintro ⟨pre, post, he, h1, h2⟩
            cases pre with
            | nil =>
              rw [List.nil_append] at he
              rcases h2 with h2 | ⟨n, rest, h2, _, h3⟩
              · rw [h2] at he; cases he
              · rw [h2] at he; cases he; rw [hf] at h3; cases h3
            | cons x xs =>
              cases he
              obtain ⟨h, g, h3, h4, h5⟩ := h1 a List.mem_cons_self
              rw [hb] at h3; cases h3
              rw [hf] at h4; cases h4
              rw [hvv] at h5; cases h5
        | none =>
          simp only
          rw [ih]
          constructor
          · rintro ⟨pre, post, he, h1, h2⟩
            exact ⟨a :: pre, post, by rw [he]; rfl, List.forall_mem_cons.2 ⟨⟨d, f, hb, hf, hvv⟩, h1⟩, h2⟩
          · rintro ⟨pre, post, he, h1, h2⟩
            cases pre with
            | nil =>
              rw [List.nil_append] at he
              rcases h2 with h2 | ⟨n, rest, h2, _, h3⟩
              · rw [h2] at he; cases he
              · rw [h2] at he; cases he; rw [hf] at h3; cases h3
            | cons x xs =>
              cases he
              exact ⟨xs, post, rfl, fun n hn => h1 n (List.mem_cons_of_mem _ hn), h2⟩

theorem hasherOf_none {env : Env1} {n : Bytes} : hasherOf env n = none ↔ ∀ a : JarAlg, a.name ≠ n := by
  constructor
  · intro h a e
    rw [(hasherOf_iff env n (a.hash env)).2 ⟨a, e, rfl⟩] at h
    cases h
  · intro h
    cases hh : hasherOf env n with
    | none => rfl
    | some f =>
      obtain ⟨a, e, _⟩ := (hasherOf_iff ..).1 hh
      exact absurd e (h a)

theorem checkMainAttrs_iff {env : Env1} {mf sm : Manifest} {minSdk maxSdk : Int} :
    checkMainAttrs env mf sm (signtoolFlag sm) minSdk maxSdk = none ↔ MainAttrsOk env mf sm minSdk maxSdk := by
  unfold checkMainAttrs MainAttrsOk
  rw [← signtoolFlag_iff]
  by_cases hc : 0 < sm.mainEnd ∧ signtoolFlag sm = false
  · rw [if_pos hc]
    have h1 : ¬ signtoolFlag sm = true := by rw [hc.2]; simp
    have h2 : ¬ sm.mainEnd = 0 := by omega
    simp only [h1, h2, false_or]
    have key : ∀ {r : Option EntE}, (match r with | some EntE.noKnownHashes => none | r => r) = none ↔ r = none ∨ r = some EntE.noKnownHashes := by
      intro r
      cases r with
      | none => simp
      | some e => cases e <;> simp
    refine Iff.trans (b := verifyEntry env sm.main (b!"-digest-manifest-main-attributes") minSdk maxSdk
        (fun h hash => if h = hash (mf.rawData.take mf.mainEnd) then none else some .mainAttrsHash) = none ∨
      verifyEntry env sm.main (b!"-digest-manifest-main-attributes") minSdk maxSdk
        (fun h hash => if h = hash (mf.rawData.take mf.mainEnd) then none else some .mainAttrsHash) = some .noKnownHashes) ?_ ?_
    · generalize verifyEntry env sm.main (b!"-digest-manifest-main-attributes") minSdk maxSdk
        (fun h hash => if h = hash (mf.rawData.take mf.mainEnd) then none else some .mainAttrsHash) = r
      cases r with
      | none => simp
      | some e => cases e <;> simp
    · have hd : ∀ n ∈ digestsToVerify env sm.main (b!"-digest-manifest-main-attributes") minSdk maxSdk,
          ∃ v, mget sm.main (n ++ b!"-digest-manifest-main-attributes") = some v := by
        intro n hn
        cases (mem_digestsToVerify ..).1 hn with
        | strongest _ _ h _ => exact h
        | listed _ _ _ h _ => exact h
      have hv : ∀ (h : Bytes) (f : Bytes → Bytes), (if h = f (mf.rawData.take mf.mainEnd) then (none : Option EntE) else some .mainAttrsHash) ≠ some .noKnownHashes := by
        intro h f
        split <;> simp
      unfold verifyEntry
      have step : (∃ l, InOrder env sm.main (b!"-digest-manifest-main-attributes") minSdk maxSdk l ∧ ∃ pre post, l = pre ++ post ∧
          (∀ n ∈ pre, RightDigest env sm.main (b!"-digest-manifest-main-attributes") (fun a h => a.hash env (mf.rawData.take mf.mainEnd) = h) n) ∧
          (post = [] ∨ ∃ n rest, post = n :: rest ∧ (∀ a : JarAlg, a.name ≠ n) ∧
            ∃ v, mget sm.main (n ++ b!"-digest-manifest-main-attributes") = some v ∧ (env.base64 v).isSome)) ↔
          ∃ pre post, digestsToVerify env sm.main (b!"-digest-manifest-main-attributes") minSdk maxSdk = pre ++ post ∧
          (∀ n ∈ pre, ∃ h f, env.base64 ((mget sm.main (n ++ b!"-digest-manifest-main-attributes")).getD []) = some h ∧ hasherOf env n = some f ∧
            (if h = f (mf.rawData.take mf.mainEnd) then (none : Option EntE) else some .mainAttrsHash) = none) ∧
          (post = [] ∨ ∃ n rest, post = n :: rest ∧ (env.base64 ((mget sm.main (n ++ b!"-digest-manifest-main-attributes")).getD [])).isSome ∧ hasherOf env n = none) := by
        constructor
        · rintro ⟨l, hl, pre, post, he, h1, h2⟩
          rw [inOrder_iff] at hl
          subst hl
          refine ⟨pre, post, he, fun n hn => ?_, ?_⟩
          · obtain ⟨a, h, rfl, ⟨v, hv1, hv2⟩, hh⟩ := h1 n hn
            exact ⟨h, a.hash env, by rw [hv1, Option.getD_some, hv2], (hasherOf_iff ..).2 ⟨a, rfl, rfl⟩, if_pos hh.symm⟩
          · rcases h2 with h2 | ⟨n, rest, h2, h3, v, hv1, hv2⟩
            · exact .inl h2
            · exact .inr ⟨n, rest, h2, by rw [hv1, Option.getD_some, hv2], hasherOf_none.2 h3⟩
        · rintro ⟨pre, post, he, h1, h2⟩
          refine ⟨_, inOrder_iff.2 rfl, pre, post, he, fun n hn => ?_, ?_⟩
          · obtain ⟨h, f, hh1, hh2, hh3⟩ := h1 n hn
            obtain ⟨a, rfl, rfl⟩ := (hasherOf_iff ..).1 hh2
            obtain ⟨v, hv⟩ := hd a.name (by rw [he]; exact List.mem_append_left _ hn)
            rw [hv, Option.getD_some] at hh1
            exact ⟨a, h, rfl, ⟨v, hv, hh1⟩, (ite_none_iff.1 hh3).symm⟩
          · rcases h2 with h2 | ⟨n, rest, h2, h3, h4⟩
            · exact .inl h2
            · obtain ⟨v, hv⟩ := hd n (by rw [he, h2]; simp)
              rw [hv, Option.getD_some] at h3
              exact .inr ⟨n, rest, h2, hasherOf_none.1 h4, v, hv, h3⟩
      rw [step, ← verifyDigests_known env sm.main (b!"-digest-manifest-main-attributes") (fun h hash => if h = hash (mf.rawData.take mf.mainEnd) then none else some .mainAttrsHash) hv]
      split
      · rename_i h0
        rw [h0]
        simp [verifyDigests]
      · simp only [Bool.false_eq_true, false_or]
  · rw [if_neg hc]
    simp only [true_iff]
    by_cases h1 : signtoolFlag sm = true
    · exact .inl h1
    · right; left
      refine Classical.byContradiction (fun h => hc ⟨by omega, by simpa using h1⟩)

end Apk

namespace Apk

/-! ## The archive -/

/-- What is asked of each signature, whether or not it counts. -/
def SigPasses (env : Env1) (mf : Manifest) (hasBlock : Bool) (minSdk maxSdk : Int) (r : Ready) : Prop :=
  (∃ leaf, BlockSigns env r.p7 r.sm.rawData minSdk maxSdk leaf) ∧
  (hasBlock = false → 24 ≤ maxSdk → ∀ ids, mget r.sm.main (b!"x-android-apk-signed") = some ids → ¬ ListsTwo ids) ∧
  ((∃ v, mget r.sm.main (b!"signature-version") = some v) → MainAttrsOk env mf r.sm minSdk maxSdk)

theorem downgraded_iff {sm : Manifest} {hasBlock : Bool} {maxSdk : Int} : downgraded sm hasBlock maxSdk = false ↔
    (hasBlock = false → 24 ≤ maxSdk → ∀ ids, mget sm.main (b!"x-android-apk-signed") = some ids → ¬ ListsTwo ids) := by
  unfold downgraded
  cases hg : mget sm.main (b!"x-android-apk-signed") with
  | none => simp
  | some ids =>
    simp only [Bool.and_eq_false_iff, Bool.not_eq_eq_eq_not, Bool.not_false, Option.some.injEq, forall_eq']
    rw [← listsScheme2_iff]
    cases hasBlock with
    | true => simp
    | false =>
      unfold supportsSigV2
      simp only [Bool.false_eq_true, false_or, forall_const, Bool.not_eq_true]
      by_cases hm : 24 ≤ maxSdk <;> simp [hm]

theorem judge_valid {env : Env1} {ord : Ord1} {mf : Manifest} {hasBlock : Bool} {minSdk maxSdk : Int} {s : Ready} {leaf : Cert}
    (h : BlockSigns env s.p7 s.sm.rawData minSdk maxSdk leaf) :
    judge env ord mf hasBlock minSdk maxSdk s =
      if downgraded s.sm hasBlock maxSdk then .ok (.stop (some (buildChain env s.p7.certs leaf)) .downgrade)
      else if (mget s.sm.main (b!"signature-version")).isNone then .ok (.skip (some (buildChain env s.p7.certs leaf)))
      else match checkMainAttrs env mf s.sm (signtoolFlag s.sm) minSdk maxSdk with
        | some e => .ok (.stop (some (buildChain env s.p7.certs leaf)) (.mainAttrs e))
        | none =>
          if coversManifest env ord mf s.name s.sm (signtoolFlag s.sm) minSdk maxSdk then .ok (.good (some (buildChain env s.p7.certs leaf)))
          else .ok (.skip (some (buildChain env s.p7.certs leaf))) := by
  unfold judge
  rw [verifySignature1_iff.2 ⟨leaf, h, rfl⟩]
  rfl

theorem version_iff {m : Attrs} : (mget m (b!"signature-version")).isNone = false ↔ ∃ v, mget m (b!"signature-version") = some v := by
  cases mget m (b!"signature-version") <;> simp

theorem judge_passes {env : Env1} {ord : Ord1} {mf : Manifest} {hasBlock : Bool} {minSdk maxSdk : Int} {s : Ready} :
    (stopsAt env ord mf hasBlock minSdk maxSdk s = false ∧ isBad env ord mf hasBlock minSdk maxSdk s = false) ↔
      SigPasses env mf hasBlock minSdk maxSdk s := by
  unfold SigPasses
  rw [← downgraded_iff, ← checkMainAttrs_iff, ← version_iff]
  by_cases hb : ∃ leaf, BlockSigns env s.p7 s.sm.rawData minSdk maxSdk leaf
  · simp only [hb, true_and]
    obtain ⟨leaf, hb⟩ := hb
    unfold stopsAt isBad
    rw [judge_valid hb]
    cases hd : downgraded s.sm hasBlock maxSdk with
    | true => simp
    | false =>
      simp only [Bool.false_eq_true, if_false, true_and]
      cases hv : (mget s.sm.main (b!"signature-version")).isNone with
      | true => simp
      | false =>
        simp only [Bool.false_eq_true, if_false, forall_const]
        cases checkMainAttrs env mf s.sm (signtoolFlag s.sm) minSdk maxSdk with
        | some e => simp
        | none => cases coversManifest env ord mf s.name s.sm (signtoolFlag s.sm) minSdk maxSdk <;> simp
  · simp only [hb, false_and, iff_false]
    rintro ⟨h1, h2⟩
    unfold stopsAt at h1
    unfold isBad at h2
    unfold judge at h1 h2
    rcases hr : verifySignature1 env s.p7 s.sm.rawData minSdk maxSdk with p | ⟨c, _ | e⟩
    · rw [hr] at h1; simp at h1
    · obtain ⟨leaf, h, _⟩ := verifySignature1_iff.1 hr
      exact hb ⟨leaf, h⟩
    · rw [hr] at h2; simp at h2

/-- What a passing signature contributes. -/
theorem passes_gives {env : Env1} {ord : Ord1} {mf : Manifest} {hasBlock : Bool} {minSdk maxSdk : Int} {s : Ready}
    (h : SigPasses env mf hasBlock minSdk maxSdk s) : ∃ leaf, BlockSigns env s.p7 s.sm.rawData minSdk maxSdk leaf ∧
      chainOf env ord mf hasBlock minSdk maxSdk s = some (buildChain env s.p7.certs leaf) ∧
      (Counts env mf minSdk maxSdk s → goodOf env ord mf hasBlock minSdk maxSdk s = some ⟨s, buildChain env s.p7.certs leaf⟩) ∧
      (¬ Counts env mf minSdk maxSdk s → goodOf env ord mf hasBlock minSdk maxSdk s = none) := by
  obtain ⟨⟨leaf, hb⟩, hd, hm⟩ := h
  rw [← downgraded_iff] at hd
  rw [← checkMainAttrs_iff, ← version_iff] at hm
  refine ⟨leaf, hb, ?_⟩
  unfold chainOf goodOf Counts
  rw [judge_valid hb, hd, ← version_iff, ← coversManifest_iff env ord mf s.sm s.name]
  simp only [Bool.false_eq_true, if_false]
  cases hv : (mget s.sm.main (b!"signature-version")).isNone with
  | true => simp [Verdict1.chain]
  | false =>
    rw [hm hv]
    simp only [Bool.false_eq_true, if_false, true_and]
    cases coversManifest env ord mf s.name s.sm (signtoolFlag s.sm) minSdk maxSdk <;> simp [Verdict1.chain]

open Classical in
theorem cover_spec {env : Env1} {ord : Ord1} {mf : Manifest} {hasBlock : Bool} {minSdk maxSdk : Int} {sigs : List Ready}
    (h : ∀ s ∈ sigs, SigPasses env mf hasBlock minSdk maxSdk s) (p : Bytes) :
    ChainsOf env minSdk maxSdk sigs (CountsFor env mf minSdk maxSdk p) (coverChains (sigs.filterMap (goodOf env ord mf hasBlock minSdk maxSdk)) p) := by
  unfold ChainsOf
  induction sigs with
  | nil => simp [coverChains]
  | cons s ss ih =>
    obtain ⟨ih1, ih2⟩ := ih (fun x hx => h x (List.mem_cons_of_mem _ hx))
    obtain ⟨leaf, hb, h1, h2, h3⟩ := passes_gives (ord := ord) (h s List.mem_cons_self)
    rw [List.countP_cons]
    by_cases hc : CountsFor env mf minSdk maxSdk p s
    · have e : coverChains ((s :: ss).filterMap (goodOf env ord mf hasBlock minSdk maxSdk)) p =
          buildChain env s.p7.certs leaf :: coverChains (ss.filterMap (goodOf env ord mf hasBlock minSdk maxSdk)) p := by
        rw [List.filterMap_cons_some (h2 hc.1)]
        unfold coverChains
        rw [List.filter_cons_of_pos]
        · rfl
        · obtain ⟨as, has⟩ := hc.2
          simp only [has]; rfl
      rw [e, List.length_cons, ih1, if_pos (by simpa using hc)]
      refine ⟨rfl, fun raws => ?_⟩
      rw [List.map_cons, List.mem_cons, ih2]
      constructor
      · rintro (h | ⟨r, hr, h⟩)
        · exact ⟨s, List.mem_cons_self, hc, (sigChain_iff hb).2 h⟩
        · exact ⟨r, List.mem_cons_of_mem _ hr, h⟩
      · rintro ⟨r, hr, h4, h5⟩
        rcases List.mem_cons.1 hr with rfl | hr
        · exact .inl ((sigChain_iff hb).1 h5)
        · exact .inr ⟨r, hr, h4, h5⟩
    · have e : coverChains ((s :: ss).filterMap (goodOf env ord mf hasBlock minSdk maxSdk)) p =
          coverChains (ss.filterMap (goodOf env ord mf hasBlock minSdk maxSdk)) p := by
        by_cases hcc : Counts env mf minSdk maxSdk s
        · rw [List.filterMap_cons_some (h2 hcc)]
          unfold coverChains
          rw [List.filter_cons_of_neg]
          intro hs
          refine hc ⟨hcc, ?_⟩
          cases hg : mget s.sm.entries p with
          | some as => exact ⟨as, rfl⟩
          | none => simp only [hg] at hs; cases hs
        · rw [List.filterMap_cons_none (h3 hcc)]
      rw [e, ih1, if_neg (by simpa using hc)]
      refine ⟨rfl, fun raws => ?_⟩
      rw [ih2]
      constructor
      · rintro ⟨r, hr, h⟩
        exact ⟨r, List.mem_cons_of_mem _ hr, h⟩
      · rintro ⟨r, hr, h4, h5⟩
        rcases List.mem_cons.1 hr with rfl | hr
        · exact absurd h4 hc
        · exact ⟨r, hr, h4, h5⟩

open Classical in
theorem chains_spec {env : Env1} {ord : Ord1} {mf : Manifest} {hasBlock : Bool} {minSdk maxSdk : Int} {sigs : List Ready}
    (h : ∀ s ∈ sigs, SigPasses env mf hasBlock minSdk maxSdk s) :
    ChainsOf env minSdk maxSdk sigs (fun _ => True) (sigs.filterMap (chainOf env ord mf hasBlock minSdk maxSdk)) ∧
    (sigs.filterMap (chainOf env ord mf hasBlock minSdk maxSdk)).length = sigs.length := by
  unfold ChainsOf
  induction sigs with
  | nil => simp
  | cons s ss ih =>
    obtain ⟨⟨ih1, ih2⟩, ih3⟩ := ih (fun x hx => h x (List.mem_cons_of_mem _ hx))
    obtain ⟨leaf, hb, h1, h2, h3⟩ := passes_gives (ord := ord) (h s List.mem_cons_self)
    rw [List.countP_cons, List.filterMap_cons_some h1, List.length_cons, ih1, List.length_cons]
    refine ⟨⟨by simp, fun raws => ?_⟩, by rw [← ih1, ih3]⟩
    rw [List.map_cons, List.mem_cons, ih2]
    constructor
    · rintro (h | ⟨r, hr, h⟩)
      · exact ⟨s, List.mem_cons_self, trivial, (sigChain_iff hb).2 h⟩
      · exact ⟨r, List.mem_cons_of_mem _ hr, h⟩
    · rintro ⟨r, hr, h4, h5⟩
      rcases List.mem_cons.1 hr with rfl | hr
      · exact .inl ((sigChain_iff hb).1 h5)
      · exact .inr ⟨r, hr, h4, h5⟩

theorem good_ne_nil {env : Env1} {ord : Ord1} {mf : Manifest} {hasBlock : Bool} {minSdk maxSdk : Int} {sigs : List Ready}
    (h : ∀ s ∈ sigs, SigPasses env mf hasBlock minSdk maxSdk s) :
    sigs.filterMap (goodOf env ord mf hasBlock minSdk maxSdk) ≠ [] ↔ ∃ r ∈ sigs, Counts env mf minSdk maxSdk r := by
  rw [Ne, List.filterMap_eq_nil_iff]
  constructor
  · intro hn
    refine Classical.byContradiction (fun hc => hn (fun s hs => ?_))
    obtain ⟨leaf, hb, h1, h2, h3⟩ := passes_gives (ord := ord) (h s hs)
    exact h3 (fun hcc => hc ⟨s, hs, hcc⟩)
  · rintro ⟨s, hs, hc⟩ hn
    obtain ⟨leaf, hb, h1, h2, h3⟩ := passes_gives (ord := ord) (h s hs)
    rw [hn s hs] at h2
    exact absurd (h2 hc) (by simp)

theorem match_iff {env : Env1} {minSdk maxSdk : Int} {sigs : List Ready} {P Q : Ready → Prop} {a b : List (List Cert)}
    (ha : ChainsOf env minSdk maxSdk sigs P a) (hb : ChainsOf env minSdk maxSdk sigs Q b) :
    certChainsMatch a b = true ↔ (open Classical in sigs.countP (fun r => decide (P r)) = sigs.countP (fun r => decide (Q r)) ∧
      ∀ raws, (∃ r ∈ sigs, P r ∧ SigChain env minSdk maxSdk r raws) ↔ ∃ r ∈ sigs, Q r ∧ SigChain env minSdk maxSdk r raws) := by
  rw [certChainsMatch_iff, ha.1, hb.1]
  refine and_congr Iff.rfl ⟨fun h raws => ?_, fun h raws => ?_⟩
  · rw [← ha.2, ← hb.2]; exact h raws
  · rw [ha.2, hb.2]; exact h raws

theorem chains_ne_nil {env : Env1} {minSdk maxSdk : Int} {sigs : List Ready} {P : Ready → Prop} {a : List (List Cert)}
    (ha : ChainsOf env minSdk maxSdk sigs P a) : a ≠ [] ↔ ∃ r ∈ sigs, P r := by
  rw [← List.length_pos_iff, ha.1, List.countP_pos_iff]
  simp

theorem mem_required {z : Zip1} {p : Bytes} : p ∈ requiredPaths z ↔ Required z p := mem_requiredPaths

theorem accepts_iff {env : Env1} {ord : Ord1} {z : Zip1} {mf : Manifest} {sigs : List Ready} {hasBlock : Bool} {minSdk maxSdk : Int} :
    Accepts env ord z mf sigs hasBlock minSdk maxSdk ↔ JarAccepted env z mf sigs hasBlock minSdk maxSdk := by
  constructor
  · intro h
    have hp : ∀ s ∈ sigs, SigPasses env mf hasBlock minSdk maxSdk s := fun s hs => judge_passes.1 ⟨h.noStop s hs, h.noBad s hs⟩
    refine ⟨fun r hr => (hp r hr).1, fun h1 h2 r hr => (hp r hr).2.1 h1 h2, fun r hr => (hp r hr).2.2, (good_ne_nil hp).1 h.some, ?_, ?_, ?_, ?_⟩
    · rw [← (chains_spec (ord := ord) hp).2]; exact h.few
    · intro n as hn
      exact Option.isSome_iff_exists.1 (h.present _ hn)
    · intro p hr
      obtain ⟨attrs, f, h1, h2, h3, h4⟩ := h.files p (mem_required.2 hr)
      exact ⟨attrs, f, h1, h2, (verifyEntry_file ..).1 h3, (chains_ne_nil (cover_spec hp p)).1 h4⟩
    · intro p q h1 h2
      exact (match_iff (cover_spec hp p) (cover_spec hp q)).1 (h.same p (mem_required.2 h1) q (mem_required.2 h2))
  · intro h
    have hp : ∀ s ∈ sigs, SigPasses env mf hasBlock minSdk maxSdk s := fun s hs =>
      ⟨h.valid s hs, fun h1 h2 => h.noDowngrade h1 h2 s hs, h.mainAttrs s hs⟩
    refine ⟨fun s hs => (judge_passes.2 (hp s hs)).1, fun s hs => (judge_passes.2 (hp s hs)).2, (good_ne_nil hp).2 h.counts, ?_, ?_, ?_, ?_⟩
    · rw [(chains_spec (ord := ord) hp).2]; exact h.few
    · intro e he
      exact Option.isSome_iff_exists.2 (h.present e.1 e.2 he)
    · intro p hr
      obtain ⟨attrs, f, h1, h2, h3, h4⟩ := h.files p (mem_required.1 hr)
      exact ⟨attrs, f, h1, h2, (verifyEntry_file ..).2 h3, (chains_ne_nil (cover_spec hp p)).2 h4⟩
    · intro p h1 q h2
      exact (match_iff (cover_spec hp p) (cover_spec hp q)).2 (h.same p q (mem_required.1 h1) (mem_required.1 h2))

theorem ChainsOf.perm {env : Env1} {minSdk maxSdk : Int} {s1 s2 : List Ready} {P : Ready → Prop} {a b : List (List Cert)} (hs : s1.Perm s2) (hab : a.Perm b)
    (h : ChainsOf env minSdk maxSdk s1 P a) : ChainsOf env minSdk maxSdk s2 P b := by
  refine ⟨by rw [← hab.length_eq, h.1, hs.countP_eq], fun raws => ?_⟩
  rw [← (hab.map _).mem_iff, h.2]
  exact ⟨fun ⟨r, hr, h⟩ => ⟨r, hs.mem_iff.1 hr, h⟩, fun ⟨r, hr, h⟩ => ⟨r, hs.mem_iff.2 hr, h⟩⟩

theorem JarAccepted.perm {env : Env1} {z : Zip1} {mf : Manifest} {s1 s2 : List Ready} {hasBlock : Bool} {minSdk maxSdk : Int} (hs : s1.Perm s2)
    (h : JarAccepted env z mf s1 hasBlock minSdk maxSdk) : JarAccepted env z mf s2 hasBlock minSdk maxSdk := by
  have hm : ∀ r, r ∈ s2 → r ∈ s1 := fun r hr => hs.mem_iff.2 hr
  refine ⟨fun r hr => h.valid r (hm r hr), fun h1 h2 r hr => h.noDowngrade h1 h2 r (hm r hr), fun r hr => h.mainAttrs r (hm r hr), ?_,
    by rw [← hs.length_eq]; exact h.few, h.present, ?_, ?_⟩
  · obtain ⟨r, hr, hc⟩ := h.counts
    exact ⟨r, hs.mem_iff.1 hr, hc⟩
  · intro p hp
    obtain ⟨attrs, f, h1, h2, h3, r, hr, h4⟩ := h.files p hp
    exact ⟨attrs, f, h1, h2, h3, r, hs.mem_iff.1 hr, h4⟩
  · intro p q hp hq
    obtain ⟨h1, h2⟩ := h.same p q hp hq
    rw [← hs.countP_eq, ← hs.countP_eq]
    refine ⟨h1, fun raws => ?_⟩
    have e : ∀ P : Ready → Prop, (∃ r ∈ s2, P r ∧ SigChain env minSdk maxSdk r raws) ↔ ∃ r ∈ s1, P r ∧ SigChain env minSdk maxSdk r raws :=
      fun P => ⟨fun ⟨r, hr, h⟩ => ⟨r, hs.mem_iff.2 hr, h⟩, fun ⟨r, hr, h⟩ => ⟨r, hs.mem_iff.1 hr, h⟩⟩
    rw [e, e]
    exact h2 raws

theorem verifyV1Loaded_chains {env : Env1} {ord : Ord1} {z : Zip1} {mf : Manifest} {sigs : List Ready} {hasBlock : Bool} {minSdk maxSdk : Int}
    {c : List (List Cert)} (h : verifyV1Loaded env ord z mf sigs hasBlock minSdk maxSdk = .ok (c, none)) :
    (∀ p, Required z p → ChainsOf env minSdk maxSdk sigs (CountsFor env mf minSdk maxSdk p) c) ∧
    ((∀ p, ¬ Required z p) → ChainsOf env minSdk maxSdk sigs (fun _ => True) c) := by
  obtain ⟨ha, hc⟩ := verifyV1Loaded_ok.1 h
  have hp : ∀ s ∈ sigs, SigPasses env mf hasBlock minSdk maxSdk s := fun s hs => judge_passes.1 ⟨ha.noStop s hs, ha.noBad s hs⟩
  have hpp := ord.sigs_perm sigs
  cases hr : requiredPaths z with
  | nil =>
    rw [hr] at hc
    dsimp only at hc
    refine ⟨fun p hq => ?_, fun _ => ?_⟩
    · have := mem_required.2 hq
      rw [hr] at this; cases this
    · rw [hc]
      exact (chains_spec (ord := ord) hp).1.perm (.refl _) (hpp.symm.filterMap _)
  | cons q qs =>
    rw [hr] at hc
    dsimp only at hc
    have hq : q ∈ requiredPaths z := by rw [hr]; exact List.mem_cons_self
    refine ⟨fun p hreq => ?_, fun hn => absurd (mem_required.1 hq) (hn q)⟩
    have h1 : ChainsOf env minSdk maxSdk sigs (CountsFor env mf minSdk maxSdk q) c := by
      rw [hc]
      refine (cover_spec (ord := ord) hp q).perm (.refl _) (coverChains_perm ?_ q)
      exact (hpp.symm.filterMap _).trans (ord.cover_perm q _).symm
    obtain ⟨h2, h3⟩ := (match_iff (cover_spec hp p) (cover_spec hp q)).1 (ha.same p (mem_required.2 hreq) q hq)
    exact ⟨by rw [h1.1]; exact h2.symm, fun raws => by rw [h1.2]; exact (h3 raws).symm⟩

end Apk
