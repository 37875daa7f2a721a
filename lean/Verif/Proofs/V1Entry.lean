import Verif.Proofs.V1Text
/-! # Digests of manifest entries -/
namespace Apk

theorem hasherOf_iff (env : Env1) (n : Bytes) (f : Bytes → Bytes) :
    hasherOf env n = some f ↔ ∃ a : JarAlg, a.name = n ∧ f = a.hash env := by
  constructor
  · intro h
    unfold hasherOf at h
    split at h
    · rename_i e; exact ⟨.sha512, e.symm, (Option.some.inj h).symm⟩
    split at h
    · rename_i e; exact ⟨.sha384, e.symm, (Option.some.inj h).symm⟩
    split at h
    · rename_i e; exact ⟨.sha256, e.symm, (Option.some.inj h).symm⟩
    split at h
    · rename_i e; exact ⟨.sha1, e.symm, (Option.some.inj h).symm⟩
    · cases h
  · rintro ⟨a, rfl, rfl⟩
    cases a <;> rfl

theorem verifyDigests_none (env : Env1) (entry : Attrs) (suffix : Bytes) (verify : Bytes → (Bytes → Bytes) → Option EntE)
    (l : List Bytes) :
    verifyDigests env entry suffix verify l = none ↔
      ∀ n ∈ l, ∃ h f, env.base64 ((mget entry (n ++ suffix)).getD []) = some h ∧ hasherOf env n = some f ∧ verify h f = none := by
  induction l with
  | nil => simp [verifyDigests]
  | cons a as ih =>
    unfold verifyDigests
    constructor
    · intro h
      split at h
      · cases h
      rename_i d hd
      split at h
      · cases h
      rename_i f hf
      split at h
      · cases h
      rename_i hv
      intro n hn
      rcases List.mem_cons.1 hn with rfl | hn
      · exact ⟨d, f, hd, hf, hv⟩
      · exact ih.1 h n hn
    · intro h
      obtain ⟨d, f, hd, hf, hv⟩ := h a List.mem_cons_self
      rw [hd]; simp only
      rw [hf]; simp only
      rw [hv]; simp only
      exact ih.2 (fun n hn => h n (List.mem_cons_of_mem _ hn))

theorem hasDigest_iff (attrs : Attrs) (suffix n : Bytes) : (mget attrs (n ++ suffix)).isSome = true ↔ HasDigest attrs suffix n := by
  unfold HasDigest
  cases mget attrs (n ++ suffix) <;> simp

theorem strongest_iff (attrs : Attrs) (suffix n : Bytes) :
    digestAlgorithms.find? (fun a => (mget attrs (a ++ suffix)).isSome) = some n ↔
      ∃ a : JarAlg, a.name = n ∧ HasDigest attrs suffix a.name ∧ ∀ b : JarAlg, a.rank < b.rank → ¬ HasDigest attrs suffix b.name := by
  have e5 := hasDigest_iff attrs suffix (JarAlg.name .sha512)
  have e3 := hasDigest_iff attrs suffix (JarAlg.name .sha384)
  have e2 := hasDigest_iff attrs suffix (JarAlg.name .sha256)
  have e1 := hasDigest_iff attrs suffix (JarAlg.name .sha1)
  have hall : digestAlgorithms = [JarAlg.name .sha512, JarAlg.name .sha384, JarAlg.name .sha256, JarAlg.name .sha1] := rfl
  rw [hall]
  constructor
  · intro h
    simp only [List.find?_cons] at h
    split at h
    · rename_i h5
      exact ⟨.sha512, Option.some.inj h, e5.1 h5, fun b hb => by cases b <;> simp [JarAlg.rank] at hb⟩
    rename_i h5
    have n5 : ¬ HasDigest attrs suffix (JarAlg.name .sha512) := fun x => by rw [e5.2 x] at h5; cases h5
    split at h
    · rename_i h3
      refine ⟨.sha384, Option.some.inj h, e3.1 h3, fun b hb => ?_⟩
      cases b <;> simp [JarAlg.rank] at hb
      exact n5
    rename_i h3
    have n3 : ¬ HasDigest attrs suffix (JarAlg.name .sha384) := fun x => by rw [e3.2 x] at h3; cases h3
    split at h
    · rename_i h2
      refine ⟨.sha256, Option.some.inj h, e2.1 h2, fun b hb => ?_⟩
      cases b <;> simp [JarAlg.rank] at hb
      · exact n5
      · exact n3
    rename_i h2
    have n2 : ¬ HasDigest attrs suffix (JarAlg.name .sha256) := fun x => by rw [e2.2 x] at h2; cases h2
    split at h
    · rename_i h1
      refine ⟨.sha1, Option.some.inj h, e1.1 h1, fun b hb => ?_⟩
      cases b <;> simp [JarAlg.rank] at hb
      · exact n5
      · exact n3
      · exact n2
    · cases h
  · rintro ⟨a, rfl, h1, h2⟩
    have no : ∀ {b : JarAlg}, ¬ HasDigest attrs suffix b.name → (mget attrs (b.name ++ suffix)).isSome = false := by
      intro b hb
      cases hx : (mget attrs (b.name ++ suffix)).isSome with
      | false => rfl
      | true => exact absurd ((hasDigest_iff _ _ _).1 hx) hb
    simp only [List.find?_cons]
    cases a with
    | sha512 => rw [e5.2 h1]
    | sha384 => rw [no (h2 .sha512 (by decide)), e3.2 h1]
    | sha256 => rw [no (h2 .sha512 (by decide)), no (h2 .sha384 (by decide)), e2.2 h1]
    | sha1 => rw [no (h2 .sha512 (by decide)), no (h2 .sha384 (by decide)), no (h2 .sha256 (by decide)), e1.2 h1]

theorem mem_digestsToVerify (env : Env1) (attrs : Attrs) (suffix : Bytes) (minSdk maxSdk : Int) (n : Bytes) :
    n ∈ digestsToVerify env attrs suffix minSdk maxSdk ↔ Checked env attrs suffix minSdk maxSdk n := by
  unfold digestsToVerify
  simp only [List.mem_append]
  constructor
  · rintro (h | h)
    · split at h
      · rename_i hmin
        rw [List.mem_filter] at h
        obtain ⟨h1, h2⟩ := h
        simp only [Bool.and_eq_true, Bool.or_eq_true, decide_eq_true_eq] at h2
        exact .listed n hmin ((mem_splitByte _ _ _).1 h1) ((hasDigest_iff _ _ _).1 h2.2) h2.1
      · cases h
    · split at h
      · rename_i hmax
        rw [Option.mem_toList] at h
        obtain ⟨a, rfl, h1, h2⟩ := (strongest_iff _ _ _).1 h
        exact .strongest a hmax h1 h2
      · cases h
  · intro h
    cases h with
    | strongest a hmax h1 h2 =>
      refine .inr ?_
      rw [if_pos hmax, Option.mem_toList]
      exact (strongest_iff _ _ _).2 ⟨a, rfl, h1, h2⟩
    | listed n hmin h1 h2 h3 =>
      refine .inl ?_
      rw [if_pos hmin, List.mem_filter]
      refine ⟨(mem_splitByte _ _ _).2 h1, ?_⟩
      simp only [Bool.and_eq_true, Bool.or_eq_true, decide_eq_true_eq]
      exact ⟨h3, (hasDigest_iff _ _ _).2 h2⟩

/-- An entry is accepted exactly when all the digests that must be checked are known and pass the callback. -/
theorem verifyEntry_none (env : Env1) (attrs : Attrs) (suffix : Bytes) (minSdk maxSdk : Int)
    (verify : Bytes → (Bytes → Bytes) → Option EntE) :
    verifyEntry env attrs suffix minSdk maxSdk verify = none ↔
      EntryOk env attrs suffix minSdk maxSdk (fun a h => verify h (a.hash env) = none) := by
  unfold verifyEntry EntryOk
  constructor
  · intro h
    split at h
    · cases h
    rename_i hne
    rw [verifyDigests_none] at h
    refine ⟨?_, ?_⟩
    · cases hl : digestsToVerify env attrs suffix minSdk maxSdk with
      | nil => exact absurd hl hne
      | cons n ns => exact ⟨n, (mem_digestsToVerify ..).1 (by rw [hl]; exact List.mem_cons_self)⟩
    · intro n hn
      obtain ⟨d, f, hd, hf, hv⟩ := h n ((mem_digestsToVerify ..).2 hn)
      obtain ⟨a, rfl, rfl⟩ := (hasherOf_iff ..).1 hf
      have hdig : HasDigest attrs suffix a.name := by
        generalize hm : JarAlg.name a = m at hn ⊢
        cases hn with
        | strongest _ _ h1 _ => exact h1
        | listed _ _ _ h1 _ => exact h1
      obtain ⟨v, hv'⟩ := hdig
      rw [hv', Option.getD_some] at hd
      exact ⟨a, d, rfl, ⟨v, hv', hd⟩, hv⟩
  · rintro ⟨⟨n, hn⟩, h⟩
    rw [if_neg (by
      intro e
      have := (mem_digestsToVerify ..).2 hn
      rw [e] at this; cases this)]
    rw [verifyDigests_none]
    intro m hm
    obtain ⟨a, d, rfl, ⟨v, hv, hd⟩, hver⟩ := h m ((mem_digestsToVerify ..).1 hm)
    exact ⟨d, a.hash env, by rw [hv, Option.getD_some]; exact hd, (hasherOf_iff ..).2 ⟨a, rfl, rfl⟩, hver⟩

theorem EntryOk.congr {env : Env1} {attrs : Attrs} {suffix : Bytes} {minSdk maxSdk : Int} {P Q : JarAlg → Bytes → Prop}
    (h : ∀ a d, P a d ↔ Q a d) : EntryOk env attrs suffix minSdk maxSdk P ↔ EntryOk env attrs suffix minSdk maxSdk Q := by
  have : P = Q := by funext a d; exact propext (h a d)
  rw [this]

theorem EntryOk.mono {env : Env1} {attrs : Attrs} {suffix : Bytes} {minSdk maxSdk : Int} {P Q : JarAlg → Bytes → Prop}
    (h : ∀ a d, P a d → Q a d) (he : EntryOk env attrs suffix minSdk maxSdk P) : EntryOk env attrs suffix minSdk maxSdk Q :=
  ⟨he.1, fun n hn => by obtain ⟨a, d, h1, h2, h3⟩ := he.2 n hn; exact ⟨a, d, h1, h2, h a d h3⟩⟩

theorem verifyFileHash_none (f : ZFile) (h : Bytes) (hash : Bytes → Bytes) :
    verifyFileHash f h hash = none ↔ ∃ d, Copy f d ∧ hash d = h := by
  unfold verifyFileHash Copy
  constructor
  · intro hh
    split at hh
    · cases hh
    rename_i ho
    split at hh
    · rename_i ha
      rw [List.any_eq_true] at ha
      obtain ⟨x, hx, hm⟩ := ha
      cases x with
      | none => cases hm
      | some d => exact ⟨d, ⟨by simpa using ho, hx⟩, by simpa using hm⟩
    · cases hh
  · rintro ⟨d, ⟨ho, hd⟩, rfl⟩
    rw [if_neg (by simp [ho]), if_pos]
    rw [List.any_eq_true]
    exact ⟨some d, hd, by simp⟩

/-- A protected file is accepted exactly when for every checked digest some readable copy has it. -/
theorem verifyEntry_file (env : Env1) (attrs : Attrs) (minSdk maxSdk : Int) (f : ZFile) :
    verifyEntry env attrs (b!"-digest") minSdk maxSdk (verifyFileHash f) = none ↔
      EntryOk env attrs (b!"-digest") minSdk maxSdk (fun a h => ∃ d, Copy f d ∧ a.hash env d = h) := by
  rw [verifyEntry_none]
  exact EntryOk.congr (fun a d => verifyFileHash_none ..)

end Apk
