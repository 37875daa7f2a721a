import Verif.Proofs.V1Load
import Verif.Proofs.V1Sig
import Verif.Proofs.V1Entry
import Verif.Proofs.V1Text
/-! # The v1 verification loop, independently of the enumeration orders -/
namespace Apk

theorem containsB_iff (sub s : Bytes) : containsB sub s = true ↔ sub <:+: s := by
  induction s with
  | nil => simp [containsB]
  | cons c s ih =>
    simp only [containsB, Bool.or_eq_true, ih, hasPrefix, decide_eq_true_eq]
    exact List.infix_cons_iff.symm

theorem signtoolFlag_iff (sm : Manifest) : signtoolFlag sm = true ↔ BySigntool sm := by
  unfold signtoolFlag BySigntool
  rw [containsB_iff]
  cases mget sm.main (b!"created-by") with
  | none => simp
  | some v => simp

theorem ite_none_iff {α : Type} {c : Prop} [Decidable c] {e : α} : (if c then none else some e) = none ↔ c := by
  split <;> simp_all

theorem perm_all {α : Type} {a b : List α} (h : a.Perm b) (p : α → Bool) : a.all p = b.all p := by
  rw [Bool.eq_iff_iff, List.all_eq_true, List.all_eq_true]
  exact ⟨fun g x hx => g x (h.mem_iff.2 hx), fun g x hx => g x (h.mem_iff.1 hx)⟩

theorem perm_any {α : Type} {a b : List α} (h : a.Perm b) (p : α → Bool) : a.any p = b.any p := by
  rw [Bool.eq_iff_iff, List.any_eq_true, List.any_eq_true]
  exact ⟨fun ⟨x, hx, g⟩ => ⟨x, h.mem_iff.1 hx, g⟩, fun ⟨x, hx, g⟩ => ⟨x, h.mem_iff.2 hx, g⟩⟩

theorem suffix_two {d : Bytes} : hasSuffix d [10, 10] = true ↔ ∃ u, d = u ++ [10, 10] := by
  unfold hasSuffix
  rw [decide_eq_true_eq]
  exact ⟨fun ⟨u, h⟩ => ⟨u, h.symm⟩, fun ⟨u, h⟩ => ⟨u, h.symm⟩⟩

/-- What the verifier hashes for a section. -/
def hashedText (signtool : Bool) (data : Bytes) : Bytes := if signtool && hasSuffix data [10, 10] then data.dropLast else data

theorem hashedText_spec (sm : Manifest) (s t : Bytes) : sectionText (BySigntool sm) s t ↔ t = hashedText (signtoolFlag sm) s := by
  unfold sectionText hashedText
  rw [← signtoolFlag_iff]
  constructor
  · rintro (⟨h1, u, rfl, rfl⟩ | ⟨h, rfl⟩)
    · rw [h1, show hasSuffix (u ++ [10, 10]) [10, 10] = true from suffix_two.2 ⟨u, rfl⟩]
      simp only [Bool.and_self, if_true]
      rw [show (u ++ [10, 10] : Bytes) = (u ++ [10]) ++ [10] by simp, List.dropLast_concat]
    · rw [if_neg]
      intro hc
      rw [Bool.and_eq_true] at hc
      exact h ⟨hc.1, suffix_two.1 hc.2⟩
  · intro h
    split at h
    · rename_i hc
      rw [Bool.and_eq_true] at hc
      obtain ⟨u, rfl⟩ := suffix_two.1 hc.2
      refine .inl ⟨hc.1, u, rfl, ?_⟩
      rw [h, show (u ++ [10, 10] : Bytes) = (u ++ [10]) ++ [10] by simp, List.dropLast_concat]
    · rename_i hc
      refine .inr ⟨?_, h⟩
      rintro ⟨h1, h2⟩
      exact hc (by rw [h1, suffix_two.2 h2]; rfl)

theorem checkSection_none (env : Env1) (mf sm : Manifest) (minSdk maxSdk : Int) (e : Bytes × Attrs) :
    checkSection env mf (signtoolFlag sm) minSdk maxSdk e = none ↔ SectionOk env mf sm minSdk maxSdk e.1 e.2 := by
  unfold checkSection SectionOk
  rw [verifyEntry_none]
  constructor
  · intro h
    cases hc : mget mf.chunks e.1 with
    | none =>
      exfalso
      obtain ⟨n, hn⟩ := h.1
      obtain ⟨a, d, _, _, h3⟩ := h.2 n hn
      rw [hc] at h3
      cases h3
    | some data =>
      refine ⟨data, _, rfl, (hashedText_spec sm data _).2 rfl, ?_⟩
      refine EntryOk.mono (fun a d hd => ?_) h
      rw [hc] at hd
      exact (ite_none_iff.1 hd).symm
  · rintro ⟨s, t, h1, h2, h3⟩
    rw [hashedText_spec] at h2
    subst h2
    refine EntryOk.mono (fun a d hd => ?_) h3
    rw [h1]
    exact ite_none_iff.2 hd.symm

theorem wholeOk_iff (env : Env1) (mf sm : Manifest) (minSdk maxSdk : Int) :
    verifyEntry env sm.main (if signtoolFlag sm then b!"-digest" else b!"-digest-manifest") minSdk maxSdk
      (fun h hash => if h = hash mf.rawData then none else some .wholeHash) = none ↔ WholeOk env mf sm minSdk maxSdk := by
  rw [verifyEntry_none]
  rw [EntryOk.congr (Q := fun a h => a.hash env mf.rawData = h) (fun a h => ite_none_iff.trans eq_comm)]
  unfold WholeOk
  rw [← signtoolFlag_iff]
  constructor
  · intro h
    refine ⟨_, ?_, h⟩
    cases signtoolFlag sm <;> simp
  · rintro ⟨suf, (⟨h1, rfl⟩ | ⟨h1, rfl⟩), h2⟩
    · rw [h1]; exact h2
    · simp only [Bool.not_eq_true] at h1; rw [h1]; exact h2

theorem coversManifest_iff (env : Env1) (ord : Ord1) (mf sm : Manifest) (name : Bytes) (minSdk maxSdk : Int) :
    coversManifest env ord mf name sm (signtoolFlag sm) minSdk maxSdk = true ↔ Covers env mf sm minSdk maxSdk := by
  have hw := wholeOk_iff env mf sm minSdk maxSdk
  unfold coversManifest Covers
  split
  · rename_i h
    exact ⟨fun _ => .inl (hw.1 h), fun _ => rfl⟩
  · rename_i e h
    have hnw : ¬ WholeOk env mf sm minSdk maxSdk := fun hc => by rw [hw.2 hc] at h; cases h
    rw [Bool.and_eq_true, decide_eq_true_eq, perm_all (ord.sfEntries_perm _ _), List.all_eq_true]
    constructor
    · rintro ⟨h1, h2⟩
      refine .inr ⟨h1, fun e he => ?_⟩
      have := h2 e he
      rw [Option.isNone_iff_eq_none, checkSection_none] at this
      exact this
    · rintro (hc | ⟨h1, h2⟩)
      · exact absurd hc hnw
      · refine ⟨h1, fun e he => ?_⟩
        rw [Option.isNone_iff_eq_none, checkSection_none]
        exact h2 e he

/-! ## One signature at a time -/

/-- What the loop does with one signature. -/
inductive Verdict1 where
  | bad (c : Option (List Cert))
  | stop (c : Option (List Cert)) (e : V1E)
  | skip (c : Option (List Cert))
  | good (c : Option (List Cert))

/-- The chain it contributes. -/
def Verdict1.chain : Verdict1 → Option (List Cert)
  | .bad c => c
  | .stop c _ => c
  | .skip c => c
  | .good c => c

/-- The part of the loop body about one signature; the enumeration order only matters through `coversManifest`. -/
def judge (env : Env1) (ord : Ord1) (mf : Manifest) (hasBlock : Bool) (minSdk maxSdk : Int) (s : Ready) : Go Verdict1 :=
  match verifySignature1 env s.p7 s.sm.rawData minSdk maxSdk with
  | .error p => .error p
  | .ok (c, some _) => .ok (.bad c)
  | .ok (c, none) =>
    if downgraded s.sm hasBlock maxSdk then .ok (.stop c .downgrade)
    else if (mget s.sm.main (b!"signature-version")).isNone then .ok (.skip c)
    else match checkMainAttrs env mf s.sm (signtoolFlag s.sm) minSdk maxSdk with
      | some e => .ok (.stop c (.mainAttrs e))
      | none =>
        if coversManifest env ord mf s.name s.sm (signtoolFlag s.sm) minSdk maxSdk then .ok (.good c) else .ok (.skip c)

theorem coversManifest_ord (env : Env1) (o1 o2 : Ord1) (mf sm : Manifest) (name : Bytes) (minSdk maxSdk : Int) :
    coversManifest env o1 mf name sm (signtoolFlag sm) minSdk maxSdk = coversManifest env o2 mf name sm (signtoolFlag sm) minSdk maxSdk := by
  rw [Bool.eq_iff_iff, coversManifest_iff, coversManifest_iff]

theorem judge_ord (env : Env1) (o1 o2 : Ord1) (mf : Manifest) (hasBlock : Bool) (minSdk maxSdk : Int) (s : Ready) :
    judge env o1 mf hasBlock minSdk maxSdk s = judge env o2 mf hasBlock minSdk maxSdk s := by
  unfold judge
  rw [coversManifest_ord env o1 o2]

/-- Effect on the state. -/
def VState.add (st : VState) (s : Ready) : Verdict1 → VState
  | .bad c => { st with chain := st.chain ++ c.toList, sigErr := true }
  | .stop c _ => { st with chain := st.chain ++ c.toList }
  | .skip c => { st with chain := st.chain ++ c.toList }
  | .good c => { st with chain := st.chain ++ c.toList, valid := st.valid ++ [⟨s, c.getD []⟩] }

theorem verifyLoop_cons (env : Env1) (ord : Ord1) (mf : Manifest) (hasBlock : Bool) (minSdk maxSdk : Int) (s : Ready) (ss : List Ready)
    (st : VState) :
    verifyLoop env ord mf hasBlock minSdk maxSdk (s :: ss) st =
      match judge env ord mf hasBlock minSdk maxSdk s with
      | .error p => .error p
      | .ok (.stop c e) => .ok (.error (st.chain ++ c.toList, e))
      | .ok v => verifyLoop env ord mf hasBlock minSdk maxSdk ss (st.add s v) := by
  simp only [verifyLoop]
  unfold judge
  generalize verifySignature1 env s.p7 s.sm.rawData minSdk maxSdk = r
  rcases r with p | ⟨c, _ | e⟩
  · rfl
  · dsimp only
    by_cases hd : downgraded s.sm hasBlock maxSdk = true
    · rw [if_pos hd, if_pos hd]
    rw [if_neg hd, if_neg hd]
    by_cases hv : (mget s.sm.main (b!"signature-version")).isNone = true
    · rw [if_pos hv, if_pos hv]; rfl
    rw [if_neg hv, if_neg hv]
    cases checkMainAttrs env mf s.sm (signtoolFlag s.sm) minSdk maxSdk with
    | some e => rfl
    | none =>
      dsimp only
      by_cases hc : coversManifest env ord mf s.name s.sm (signtoolFlag s.sm) minSdk maxSdk = true
      · rw [if_pos hc, if_pos hc]; rfl
      · rw [if_neg hc, if_neg hc]; rfl
  · rfl

/-- The signature ends the loop: a panic, a downgrade or a wrong digest of the main attributes. -/
def stopsAt (env : Env1) (ord : Ord1) (mf : Manifest) (hasBlock : Bool) (minSdk maxSdk : Int) (s : Ready) : Bool :=
  match judge env ord mf hasBlock minSdk maxSdk s with
  | .error _ => true
  | .ok (.stop _ _) => true
  | _ => false

/-- The chain a signature contributes. -/
def chainOf (env : Env1) (ord : Ord1) (mf : Manifest) (hasBlock : Bool) (minSdk maxSdk : Int) (s : Ready) : Option (List Cert) :=
  match judge env ord mf hasBlock minSdk maxSdk s with
  | .error _ => none
  | .ok v => v.chain

/-- The signature is wrong. -/
def isBad (env : Env1) (ord : Ord1) (mf : Manifest) (hasBlock : Bool) (minSdk maxSdk : Int) (s : Ready) : Bool :=
  match judge env ord mf hasBlock minSdk maxSdk s with
  | .ok (.bad _) => true
  | _ => false

/-- The signature is accepted. -/
def goodOf (env : Env1) (ord : Ord1) (mf : Manifest) (hasBlock : Bool) (minSdk maxSdk : Int) (s : Ready) : Option Valid :=
  match judge env ord mf hasBlock minSdk maxSdk s with
  | .ok (.good c) => some ⟨s, c.getD []⟩
  | _ => none

theorem verifyLoop_ok (env : Env1) (ord : Ord1) (mf : Manifest) (hasBlock : Bool) (minSdk maxSdk : Int) (ss : List Ready) (st st' : VState) :
    verifyLoop env ord mf hasBlock minSdk maxSdk ss st = .ok (.ok st') ↔
      (∀ s ∈ ss, stopsAt env ord mf hasBlock minSdk maxSdk s = false) ∧
      st' = ⟨st.chain ++ ss.filterMap (chainOf env ord mf hasBlock minSdk maxSdk),
             st.valid ++ ss.filterMap (goodOf env ord mf hasBlock minSdk maxSdk),
             st.sigErr || ss.any (isBad env ord mf hasBlock minSdk maxSdk)⟩ := by
  induction ss generalizing st with
  | nil =>
    simp only [verifyLoop, Except.ok.injEq, List.not_mem_nil, false_implies, implies_true, List.filterMap_nil, List.append_nil,
      List.any_nil, Bool.or_false, true_and]
    exact eq_comm
  | cons s ss ih =>
    rw [verifyLoop_cons]
    simp only [List.mem_cons, forall_eq_or_imp, List.filterMap_cons, List.any_cons]
    cases hj : judge env ord mf hasBlock minSdk maxSdk s with
    | error p => simp [stopsAt, hj]
    | ok v =>
      cases v with
      | stop c e => simp [stopsAt, hj]
      | bad c =>
        dsimp only
        rw [ih]
        have h1 : stopsAt env ord mf hasBlock minSdk maxSdk s = false := by simp [stopsAt, hj]
        have h2 : chainOf env ord mf hasBlock minSdk maxSdk s = c := by simp [chainOf, hj, Verdict1.chain]
        have h3 : goodOf env ord mf hasBlock minSdk maxSdk s = none := by simp [goodOf, hj]
        have h4 : isBad env ord mf hasBlock minSdk maxSdk s = true := by simp [isBad, hj]
        rw [h1, h2, h3, h4]
        cases c <;> simp [VState.add]
      | skip c =>
        dsimp only
        rw [ih]
        have h1 : stopsAt env ord mf hasBlock minSdk maxSdk s = false := by simp [stopsAt, hj]
        have h2 : chainOf env ord mf hasBlock minSdk maxSdk s = c := by simp [chainOf, hj, Verdict1.chain]
        have h3 : goodOf env ord mf hasBlock minSdk maxSdk s = none := by simp [goodOf, hj]
        have h4 : isBad env ord mf hasBlock minSdk maxSdk s = false := by simp [isBad, hj]
        rw [h1, h2, h3, h4]
        cases c <;> simp [VState.add]
      | good c =>
        dsimp only
        rw [ih]
        have h1 : stopsAt env ord mf hasBlock minSdk maxSdk s = false := by simp [stopsAt, hj]
        have h2 : chainOf env ord mf hasBlock minSdk maxSdk s = c := by simp [chainOf, hj, Verdict1.chain]
        have h3 : goodOf env ord mf hasBlock minSdk maxSdk s = some ⟨s, c.getD []⟩ := by simp [goodOf, hj]
        have h4 : isBad env ord mf hasBlock minSdk maxSdk s = false := by simp [isBad, hj]
        rw [h1, h2, h3, h4]
        cases c <;> simp [VState.add]

/-! ## Certificate chains as sets -/

theorem chainEqual_refl (a : List Cert) : chainEqual a a = true := by
  induction a with
  | nil => rfl
  | cons x a ih => simp [chainEqual, ih]

theorem chainEqual_iff (a b : List Cert) : chainEqual a b = true ↔ a.map Cert.raw = b.map Cert.raw := by
  induction a generalizing b with
  | nil => cases b <;> simp [chainEqual]
  | cons x a ih =>
    cases b with
    | nil => simp [chainEqual]
    | cons y b => simp [chainEqual, ih]

theorem certChainsMatch_iff (a b : List (List Cert)) :
    certChainsMatch a b = true ↔ a.length = b.length ∧
      ∀ r, r ∈ a.map (fun c => c.map Cert.raw) ↔ r ∈ b.map (fun c => c.map Cert.raw) := by
  unfold certChainsMatch
  simp only [Bool.and_eq_true, decide_eq_true_eq, List.all_eq_true, List.any_eq_true, chainEqual_iff, List.mem_map]
  constructor
  · rintro ⟨⟨h1, h2⟩, h3⟩
    refine ⟨h1, fun r => ⟨?_, ?_⟩⟩
    · rintro ⟨c, hc, rfl⟩
      obtain ⟨d, hd, he⟩ := h2 c hc
      exact ⟨d, hd, he.symm⟩
    · rintro ⟨c, hc, rfl⟩
      obtain ⟨d, hd, he⟩ := h3 c hc
      exact ⟨d, hd, he⟩
  · rintro ⟨h1, h2⟩
    refine ⟨⟨h1, fun c hc => ?_⟩, fun c hc => ?_⟩
    · obtain ⟨d, hd, he⟩ := (h2 _).1 ⟨c, hc, rfl⟩
      exact ⟨d, hd, he.symm⟩
    · obtain ⟨d, hd, he⟩ := (h2 _).2 ⟨c, hc, rfl⟩
      exact ⟨d, hd, he⟩

theorem certChainsMatch_of_perm {a b : List (List Cert)} (h : a.Perm b) : certChainsMatch a b = true := by
  rw [certChainsMatch_iff]
  exact ⟨h.length_eq, fun r => (h.map _).mem_iff⟩

theorem certChainsMatch_symm {a b : List (List Cert)} (h : certChainsMatch a b = true) : certChainsMatch b a = true := by
  rw [certChainsMatch_iff] at *
  exact ⟨h.1.symm, fun r => (h.2 r).symm⟩

theorem certChainsMatch_trans {a b c : List (List Cert)} (h : certChainsMatch a b = true) (g : certChainsMatch b c = true) :
    certChainsMatch a c = true := by
  rw [certChainsMatch_iff] at *
  exact ⟨h.1.trans g.1, fun r => (h.2 r).trans (g.2 r)⟩

/-! ## The required files -/

/-- The chains of the accepted signatures that list the file. -/
def coverChains (valid : List Valid) (path : Bytes) : List (List Cert) :=
  (valid.filter (fun v => (mget v.sig.sm.entries path).isSome)).map (·.chain)

/-- The conditions on one required file, apart from the comparison of chains. -/
def PathOk (env : Env1) (z : Zip) (mf : Manifest) (valid : List Valid) (minSdk maxSdk : Int) (path : Bytes) : Prop :=
  ∃ attrs f, mget mf.entries path = some attrs ∧ z.file path = some f ∧
    verifyEntry env attrs (b!"-digest") minSdk maxSdk (verifyFileHash f) = none ∧ coverChains valid path ≠ []

theorem coverChains_perm {v1 v2 : List Valid} (h : v1.Perm v2) (path : Bytes) : (coverChains v1 path).Perm (coverChains v2 path) :=
  (h.filter _).map _

theorem ne_nil_perm {α : Type} {a b : List α} (h : a.Perm b) (ha : a ≠ []) : b ≠ [] := by
  rintro rfl
  exact ha (List.perm_nil.1 h)

theorem PathOk.perm {env : Env1} {z : Zip} {mf : Manifest} {v1 v2 : List Valid} {minSdk maxSdk : Int} {path : Bytes}
    (hp : v1.Perm v2) (h : PathOk env z mf v1 minSdk maxSdk path) : PathOk env z mf v2 minSdk maxSdk path := by
  obtain ⟨attrs, f, h1, h2, h3, h4⟩ := h
  exact ⟨attrs, f, h1, h2, h3, ne_nil_perm (coverChains_perm hp path) h4⟩

theorem coverLoop_some {env : Env1} {ord : Ord1} {z : Zip1} {mf : Manifest} {valid : List Valid} {minSdk maxSdk : Int}
    {chain0 c0 c : List (List Cert)} {paths : List Bytes} :
    coverLoop env ord z mf valid minSdk maxSdk chain0 paths (some c0) = .ok (c, none) ↔
      c = c0 ∧ ∀ p ∈ paths, PathOk env z.zip mf valid minSdk maxSdk p ∧ certChainsMatch c0 (coverChains valid p) = true := by
  induction paths with
  | nil =>
    simp only [coverLoop, Option.getD_some, Except.ok.injEq, Prod.mk.injEq, and_true, List.not_mem_nil, false_implies, implies_true]
    exact eq_comm
  | cons p ps ih =>
    have hcp := coverChains_perm (ord.cover_perm p valid) p
    simp only [coverLoop, List.mem_cons, forall_eq_or_imp]
    cases hm : mget mf.entries p with
    | none => simp [PathOk, hm]
    | some attrs =>
      dsimp only
      cases hf : z.zip.file p with
      | none => simp [PathOk, hf]
      | some f =>
        dsimp only
        cases hv : verifyEntry env attrs (b!"-digest") minSdk maxSdk (verifyFileHash f) with
        | some e => simp [PathOk, hm, hf, hv]
        | none =>
          dsimp only
          change (if coverChains (ord.cover p valid) p = [] then _ else if certChainsMatch c0 (coverChains (ord.cover p valid) p) = true then _ else _) = _ ↔ _
          by_cases hn : coverChains (ord.cover p valid) p = []
          · rw [if_pos hn]
            rw [hn] at hcp
            have hn' := List.nil_perm.1 hcp
            simp [PathOk, hn']
          · rw [if_neg hn]
            have hn' := ne_nil_perm hcp hn
            by_cases hc : certChainsMatch c0 (coverChains (ord.cover p valid) p) = true
            · rw [if_pos hc, ih]
              have hc' := certChainsMatch_trans hc (certChainsMatch_of_perm hcp)
              constructor
              · rintro ⟨h1, h2⟩
                exact ⟨h1, ⟨⟨attrs, f, hm, hf, hv, hn'⟩, hc'⟩, h2⟩
              · rintro ⟨h1, _, h2⟩
                exact ⟨h1, h2⟩
            · rw [if_neg hc]
              have hc' : ¬ certChainsMatch c0 (coverChains valid p) = true := fun h => hc (certChainsMatch_trans h (certChainsMatch_of_perm hcp.symm))
              simp [hc']

theorem coverLoop_none {env : Env1} {ord : Ord1} {z : Zip1} {mf : Manifest} {valid : List Valid} {minSdk maxSdk : Int}
    {chain0 c : List (List Cert)} {paths : List Bytes} :
    coverLoop env ord z mf valid minSdk maxSdk chain0 paths none = .ok (c, none) ↔
      (∀ p ∈ paths, PathOk env z.zip mf valid minSdk maxSdk p) ∧
      (∀ p ∈ paths, certChainsMatch c (coverChains valid p) = true) ∧
      c = (match paths with | [] => chain0 | p :: _ => coverChains (ord.cover p valid) p) := by
  cases paths with
  | nil =>
    simp only [coverLoop, Option.getD_none, Except.ok.injEq, Prod.mk.injEq, and_true, List.not_mem_nil, false_implies, implies_true, true_and]
    exact eq_comm
  | cons p ps =>
    have hcp := coverChains_perm (ord.cover_perm p valid) p
    simp only [coverLoop, List.mem_cons, forall_eq_or_imp]
    cases hm : mget mf.entries p with
    | none => simp [PathOk, hm]
    | some attrs =>
      dsimp only
      cases hf : z.zip.file p with
      | none => simp [PathOk, hf]
      | some f =>
        dsimp only
        cases hv : verifyEntry env attrs (b!"-digest") minSdk maxSdk (verifyFileHash f) with
        | some e => simp [PathOk, hm, hf, hv]
        | none =>
          dsimp only
          change (if coverChains (ord.cover p valid) p = [] then _ else coverLoop env ord z mf valid minSdk maxSdk chain0 ps (some (coverChains (ord.cover p valid) p))) = _ ↔ _
          by_cases hn : coverChains (ord.cover p valid) p = []
          · rw [if_pos hn]
            rw [hn] at hcp
            have hn' := List.nil_perm.1 hcp
            simp [PathOk, hn']
          · rw [if_neg hn, coverLoop_some]
            have hn' := ne_nil_perm hcp hn
            constructor
            · rintro ⟨rfl, h2⟩
              exact ⟨⟨⟨attrs, f, hm, hf, hv, hn'⟩, fun q hq => (h2 q hq).1⟩,
                ⟨certChainsMatch_of_perm hcp, fun q hq => (h2 q hq).2⟩, rfl⟩
            · rintro ⟨⟨_, h2⟩, ⟨_, h3⟩, rfl⟩
              exact ⟨rfl, fun q hq => ⟨h2 q hq, h3 q hq⟩⟩

/-- The conditions under which the loaded archive is accepted, independent of the enumeration orders. -/
structure Accepts (env : Env1) (ord : Ord1) (z : Zip1) (mf : Manifest) (sigs : List Ready) (hasBlock : Bool) (minSdk maxSdk : Int) : Prop where
  noStop : ∀ s ∈ sigs, stopsAt env ord mf hasBlock minSdk maxSdk s = false
  noBad : ∀ s ∈ sigs, isBad env ord mf hasBlock minSdk maxSdk s = false
  some : sigs.filterMap (goodOf env ord mf hasBlock minSdk maxSdk) ≠ []
  few : (sigs.filterMap (chainOf env ord mf hasBlock minSdk maxSdk)).length ≤ 10
  present : ∀ e ∈ mf.entries, (z.zip.file e.1).isSome = true
  files : ∀ p ∈ requiredPaths z, PathOk env z.zip mf (sigs.filterMap (goodOf env ord mf hasBlock minSdk maxSdk)) minSdk maxSdk p
  same : ∀ p ∈ requiredPaths z, ∀ q ∈ requiredPaths z,
    certChainsMatch (coverChains (sigs.filterMap (goodOf env ord mf hasBlock minSdk maxSdk)) p)
      (coverChains (sigs.filterMap (goodOf env ord mf hasBlock minSdk maxSdk)) q) = true

theorem verifyV1Loaded_ok {env : Env1} {ord : Ord1} {z : Zip1} {mf : Manifest} {sigs : List Ready} {hasBlock : Bool} {minSdk maxSdk : Int}
    {c : List (List Cert)} :
    verifyV1Loaded env ord z mf sigs hasBlock minSdk maxSdk = .ok (c, none) ↔
      Accepts env ord z mf sigs hasBlock minSdk maxSdk ∧
      c = (match requiredPaths z with
        | [] => (ord.sigs sigs).filterMap (chainOf env ord mf hasBlock minSdk maxSdk)
        | p :: _ => coverChains (ord.cover p ((ord.sigs sigs).filterMap (goodOf env ord mf hasBlock minSdk maxSdk))) p) := by
  have hp := ord.sigs_perm sigs
  have hgp := hp.filterMap (goodOf env ord mf hasBlock minSdk maxSdk)
  have hcp := hp.filterMap (chainOf env ord mf hasBlock minSdk maxSdk)
  unfold verifyV1Loaded
  cases hl : verifyLoop env ord mf hasBlock minSdk maxSdk (ord.sigs sigs) {} with
  | error p =>
    dsimp only
    constructor
    · intro h; cases h
    · rintro ⟨h, _⟩
      have := (verifyLoop_ok env ord mf hasBlock minSdk maxSdk (ord.sigs sigs) {} _).2 ⟨fun s hs => h.noStop s (hp.mem_iff.1 hs), rfl⟩
      rw [hl] at this; cases this
  | ok r =>
    cases r with
    | error e =>
      dsimp only
      constructor
      · intro h; cases h
      · rintro ⟨h, _⟩
        have := (verifyLoop_ok env ord mf hasBlock minSdk maxSdk (ord.sigs sigs) {} _).2 ⟨fun s hs => h.noStop s (hp.mem_iff.1 hs), rfl⟩
        rw [hl] at this; cases this
    | ok st =>
      dsimp only
      obtain ⟨hns, hst⟩ := (verifyLoop_ok env ord mf hasBlock minSdk maxSdk _ _ _).1 hl
      simp only [List.nil_append, Bool.false_or] at hst
      subst hst
      dsimp only
      by_cases hv : (ord.sigs sigs).filterMap (goodOf env ord mf hasBlock minSdk maxSdk) = []
      · rw [if_pos hv]
        constructor
        · intro h; cases h
        · rintro ⟨h, _⟩
          exact absurd (by rw [hv] at hgp; exact List.nil_perm.1 hgp) h.some
      rw [if_neg hv]
      by_cases hb : (ord.sigs sigs).any (isBad env ord mf hasBlock minSdk maxSdk) = true
      · rw [if_pos hb]
        constructor
        · intro h; cases h
        · rintro ⟨h, _⟩
          obtain ⟨s, hs, hbs⟩ := List.any_eq_true.1 hb
          rw [h.noBad s (hp.mem_iff.1 hs)] at hbs
          cases hbs
      rw [if_neg hb]
      by_cases hc : ((ord.sigs sigs).filterMap (chainOf env ord mf hasBlock minSdk maxSdk)).length > 10
      · rw [if_pos hc]
        constructor
        · intro h; cases h
        · rintro ⟨h, _⟩
          have := h.few
          have := hcp.length_eq
          omega
      rw [if_neg hc]
      unfold verifyMainManifest
      by_cases ha : (ord.mfEntries mf.entries).any (fun e => (z.zip.file e.1).isNone) = true
      · rw [if_pos ha]
        constructor
        · intro h; cases h
        · rintro ⟨h, _⟩
          obtain ⟨e, he, hne⟩ := List.any_eq_true.1 ha
          have := h.present e ((ord.mfEntries_perm _).mem_iff.1 he)
          rw [Option.isNone_iff_eq_none] at hne
          rw [hne] at this
          cases this
      rw [if_neg ha, coverLoop_none]
      constructor
      · rintro ⟨h1, h2, h3⟩
        refine ⟨⟨fun s hs => hns s (hp.mem_iff.2 hs), fun s hs => ?_, ne_nil_perm hgp hv, ?_, fun e he => ?_,
          fun p hp' => (h1 p hp').perm hgp, fun p hp' q hq => ?_⟩, h3⟩
        · refine Bool.eq_false_iff.2 (fun hbs => hb ?_)
          exact List.any_eq_true.2 ⟨s, hp.mem_iff.2 hs, hbs⟩
        · rw [← hcp.length_eq]; omega
        · cases hz : z.zip.file e.1 with
          | some _ => rfl
          | none => exact absurd (List.any_eq_true.2 ⟨e, (ord.mfEntries_perm _).mem_iff.2 he, by rw [hz]; rfl⟩) ha
        · have a1 := certChainsMatch_trans (h2 p hp') (certChainsMatch_of_perm (coverChains_perm hgp p))
          have a2 := certChainsMatch_trans (h2 q hq) (certChainsMatch_of_perm (coverChains_perm hgp q))
          exact certChainsMatch_trans (certChainsMatch_symm a1) a2
      · rintro ⟨h, h3⟩
        refine ⟨fun p hp' => (h.files p hp').perm hgp.symm, fun p hp' => ?_, h3⟩
        cases hr : requiredPaths z with
        | nil => rw [hr] at hp'; cases hp'
        | cons q qs =>
          rw [hr] at h3
          dsimp only at h3
          subst h3
          have hq : q ∈ requiredPaths z := by rw [hr]; exact List.mem_cons_self
          have a := h.same q hq p hp'
          refine certChainsMatch_trans (certChainsMatch_of_perm ?_) (certChainsMatch_trans a (certChainsMatch_of_perm (coverChains_perm hgp.symm p)))
          exact coverChains_perm ((ord.cover_perm q _).trans hgp) q

theorem mem_requiredPaths {z : Zip1} {p : Bytes} : p ∈ requiredPaths z ↔
    (∃ f, Protected z p f) ∨
    (p = b!"AndroidManifest.xml" ∧ (∀ f, z.zip.file (b!"AndroidManifest.xml") = some f → f.isDir = true) ∧
      ∀ f, z.zip.file (b!"BundleConfig.pb") = some f → f.isDir = true) := by
  have isf : ∀ k : Bytes, isFile z.zip k = true ↔ ∃ f, z.zip.file k = some f ∧ f.isDir = false := by
    intro k
    unfold isFile
    cases z.zip.file k with
    | none => simp
    | some f => simp
  have isn : ∀ k : Bytes, (!isFile z.zip k) = true ↔ ∀ f, z.zip.file k = some f → f.isDir = true := by
    intro k
    unfold isFile
    cases z.zip.file k with
    | none => simp
    | some f => simp
  have hfiles : p ∈ z.keys.filter (fun k => isFile z.zip k &&
      decide (k ≠ b!"AndroidManifest.xml") && !hasPrefix k (b!"META-INF/")) ↔ ∃ f, Protected z p f := by
    rw [List.mem_filter, z.mem_keys, Bool.and_eq_true, Bool.and_eq_true, isf]
    simp only [decide_eq_true_eq, Bool.not_eq_true', hasPrefix, decide_eq_false_iff_not]
    constructor
    · rintro ⟨_, ⟨⟨f, h1, h2⟩, h3⟩, h4⟩
      exact ⟨f, h1, h2, h3, h4⟩
    · rintro ⟨f, h1, h2, h3, h4⟩
      exact ⟨by rw [h1]; rfl, ⟨⟨f, h1, h2⟩, h3⟩, h4⟩
  unfold requiredPaths
  dsimp only
  split
  · rename_i hc
    rw [Bool.and_eq_true, isn, isn] at hc
    rw [List.mem_append, hfiles, List.mem_singleton]
    constructor
    · rintro (h | h)
      · exact .inl h
      · exact .inr ⟨h, hc.1, hc.2⟩
    · rintro (h | h)
      · exact .inl h
      · exact .inr h.1
  · rename_i hc
    rw [hfiles]
    constructor
    · exact .inl
    · rintro (h | h)
      · exact h
      · refine absurd ?_ hc
        rw [Bool.and_eq_true, isn, isn]
        exact h.2

end Apk
