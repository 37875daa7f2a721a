import Verif.Spec.Chain
/-! # Certificate chains: lemmas -/
namespace Apk
open Spec

/-! ## Signatures -/

theorem sigHash_iff (algo id : Nat) : SigHash algo id ↔
    (id ≠ 0 ∧ id = if algo = 3 ∨ algo = 7 ∨ algo = 9 then 3 else if algo = 4 ∨ algo = 13 ∨ algo = 8 ∨ algo = 10 then 5
      else if algo = 5 ∨ algo = 14 ∨ algo = 11 then 6 else if algo = 6 ∨ algo = 15 ∨ algo = 12 then 7 else 0) := by
  constructor
  · intro h
    cases h <;> rename_i h <;> simp only [List.mem_cons, List.not_mem_nil, or_false] at h <;> (constructor; · decide)
    · rw [if_pos (by omega)]
    · rw [if_neg (by omega), if_pos (by omega)]
    · rw [if_neg (by omega), if_neg (by omega), if_pos (by omega)]
    · rw [if_neg (by omega), if_neg (by omega), if_neg (by omega), if_pos (by omega)]
  · rintro ⟨h0, h⟩
    by_cases h1 : algo = 3 ∨ algo = 7 ∨ algo = 9
    · rw [if_pos h1] at h; subst h; exact .sha1 _ (by simpa using h1)
    rw [if_neg h1] at h
    by_cases h2 : algo = 4 ∨ algo = 13 ∨ algo = 8 ∨ algo = 10
    · rw [if_pos h2] at h; subst h; exact .sha256 _ (by simp; omega)
    rw [if_neg h2] at h
    by_cases h3 : algo = 5 ∨ algo = 14 ∨ algo = 11
    · rw [if_pos h3] at h; subst h; exact .sha384 _ (by simp; omega)
    rw [if_neg h3] at h
    by_cases h4 : algo = 6 ∨ algo = 15 ∨ algo = 12
    · rw [if_pos h4] at h; subst h; exact .sha512 _ (by simp; omega)
    rw [if_neg h4] at h
    exact absurd h h0

theorem sigHash_range {algo id : Nat} (h : SigHash algo id) : algo ≤ 15 := by
  cases h <;> rename_i h <;> simp only [List.mem_cons, List.not_mem_nil, or_false] at h <;> omega

theorem checkSigFor_iff (env : ChainEnv) (algo : Nat) (msg sig : Bytes) (key : Key) :
    checkSigFor env algo msg sig key = true ↔ ValidSig env algo msg sig key := by
  have hid := fun id => sigHash_iff algo id
  unfold checkSigFor
  generalize (if algo = 3 ∨ algo = 7 ∨ algo = 9 then 3 else if algo = 4 ∨ algo = 13 ∨ algo = 8 ∨ algo = 10 then 5
      else if algo = 5 ∨ algo = 14 ∨ algo = 11 then 6 else if algo = 6 ∨ algo = 15 ∨ algo = 12 then 7 else 0) = t at hid
  have hr := fun id => @sigHash_range algo id
  simp only
  by_cases h0 : t = 0
  · rw [if_pos h0]
    constructor
    · intro h; cases h
    · intro h
      exfalso
      cases h with
      | rsa _ _ id _ h => exact ((hid id).1 h).1 (((hid id).1 h).2.trans h0)
      | dsa _ _ _ _ _ _ id _ h => exact ((hid id).1 h).1 (((hid id).1 h).2.trans h0)
      | ecdsa _ _ _ _ _ id _ h => exact ((hid id).1 h).1 (((hid id).1 h).2.trans h0)
  rw [if_neg h0]
  have ht : SigHash algo t := (hid t).2 ⟨h0, rfl⟩
  have hu : ∀ id, SigHash algo id → id = t := fun id h => ((hid id).1 h).2
  have h15 := hr t ht
  cases hh : env.hash t with
  | none =>
    simp only
    constructor
    · intro h; cases h
    · intro h
      exfalso
      cases h with
      | rsa _ _ id _ h h2 => rw [hu id h, hh] at h2; cases h2
      | dsa _ _ _ _ _ _ id _ h h2 => rw [hu id h, hh] at h2; cases h2
      | ecdsa _ _ _ _ _ id _ h h2 => rw [hu id h, hh] at h2; cases h2
  | some hf =>
    simp only
    cases key with
    | none =>
      constructor
      · intro h; cases h
      · intro h; cases h
    | rsa n e =>
      simp only
      constructor
      · intro h
        refine .rsa n e t hf ht hh (fun hp => ?_) (fun hp => ?_)
        · rw [if_pos (by omega)] at h; exact h
        · rw [if_neg (by omega)] at h; exact h
      · intro h
        cases h with
        | rsa _ _ id h' h1 h2 h3 h4 =>
          have := hu id h1
          subst this
          rw [hh] at h2
          obtain rfl := Option.some.inj h2
          by_cases hp : 13 ≤ algo
          · rw [if_pos (by omega)]; exact h3 hp
          · rw [if_neg (by omega)]; exact h4 (by omega)
    | dsa p q g y =>
      simp only
      constructor
      · intro h
        cases hs : env.asn1RS sig with
        | none => rw [hs] at h; cases h
        | some x =>
          obtain ⟨r, s, rest⟩ := x
          rw [hs] at h
          simp only at h
          split at h
          · cases h
          rename_i hrest
          split at h
          · cases h
          rename_i hpos
          have : rest = [] := List.length_eq_zero_iff.1 (by omega)
          subst this
          exact .dsa p q g y r s t hf ht hh hs (by omega) (by omega) h
      · intro h
        cases h with
        | dsa _ _ _ _ r s id h' h1 h2 h3 h4 h5 h6 =>
          have := hu id h1
          subst this
          rw [hh] at h2
          obtain rfl := Option.some.inj h2
          rw [h3]
          simp only
          rw [if_neg (by simp), if_neg (by omega)]
          exact h6
    | ecdsa cv x y =>
      simp only
      constructor
      · intro h
        cases hs : env.asn1RS sig with
        | none => rw [hs] at h; cases h
        | some x =>
          obtain ⟨r, s, rest⟩ := x
          rw [hs] at h
          simp only at h
          split at h
          · cases h
          rename_i hrest
          split at h
          · cases h
          rename_i hpos
          have : rest = [] := List.length_eq_zero_iff.1 (by omega)
          subst this
          exact .ecdsa cv _ y r s t hf ht hh hs (by omega) (by omega) h
      · intro h
        cases h with
        | ecdsa _ _ _ r s id h' h1 h2 h3 h4 h5 h6 =>
          have := hu id h1
          subst this
          rw [hh] at h2
          obtain rfl := Option.some.inj h2
          rw [h3]
          simp only
          rw [if_neg (by simp), if_neg (by omega)]
          exact h6

theorem testBit5 (n : Nat) : n &&& 2 ^ 5 = 0 ↔ n.testBit 5 = false := by
  constructor
  · intro h
    have := congrArg (Nat.testBit · 5) h
    simp only [Nat.testBit_and, Nat.testBit_two_pow_self, Bool.and_true, Nat.zero_testBit] at this
    exact this
  · intro h
    refine Nat.eq_of_testBit_eq (fun i => ?_)
    rw [Nat.testBit_and, Nat.testBit_two_pow, Nat.zero_testBit]
    by_cases hi : 5 = i
    · subst hi; rw [h]; rfl
    · simp [hi]

theorem checkSigFrom_iff (env : ChainEnv) (c p : CertFull) : checkSigFrom env c p = true ↔ SignedBy env c p := by
  unfold checkSigFrom
  constructor
  · intro h
    split at h
    · cases h
    rename_i h1
    split at h
    · cases h
    rename_i h2
    split at h
    · cases h
    rename_i h3
    refine ⟨fun hs => ?_, ?_, h3, (checkSigFor_iff ..).1 h⟩
    · simp only [Bool.and_eq_true, Bool.or_eq_true, decide_eq_true_eq, Bool.not_eq_true', not_and] at h1
      have h1 : ¬ ((p.version = 3 ∧ p.ext.basicConstraintsValid = false) ∨ (p.ext.basicConstraintsValid = true ∧ p.ext.isCA = false)) := fun hx => h1 hx hs
      refine ⟨fun hv => ?_, fun hv => ?_⟩
      · cases hb : p.ext.basicConstraintsValid with
        | true => rfl
        | false => exact absurd (.inl ⟨hv, hb⟩) h1
      · cases hb : p.ext.isCA with
        | true => rfl
        | false => exact absurd (.inr ⟨hv, hb⟩) h1
    · by_cases hk : p.ext.keyUsage = 0
      · exact .inl hk
      · right
        cases hb : p.ext.keyUsage.testBit 5 with
        | true => rfl
        | false => exact absurd (by simp [hk, (testBit5 _).2 hb]) h2
  · rintro ⟨h1, h2, h3, h4⟩
    rw [if_neg, if_neg, if_neg h3]
    · exact (checkSigFor_iff ..).2 h4
    · simp only [Bool.and_eq_true, decide_eq_true_eq, not_and]
      intro hk
      rcases h2 with h2 | h2
      · exact absurd h2 hk
      · rw [testBit5, h2]; simp
    · simp only [Bool.and_eq_true, Bool.or_eq_true, decide_eq_true_eq, Bool.not_eq_true', not_and]
      rintro hx hs
      obtain ⟨a, b⟩ := h1 hs
      rcases hx with ⟨x, y⟩ | ⟨x, y⟩
      · rw [a x] at y; cases y
      · rw [b x] at y; cases y

/-! ## Pools -/

/-- What pools made by adding certificates satisfy. -/
structure PoolOk (s : CertPool) (l : List CertFull) : Prop where
  sub : ∀ x ∈ s.certs, x ∈ l
  name : ∀ k i, i ∈ s.byName k ↔ ∃ x, s.certs[i]? = some x ∧ x.rawSubject = k
  keyId : ∀ k i, i ∈ s.byKeyId k ↔ ∃ x, s.certs[i]? = some x ∧ x.ext.subjectKeyId = k ∧ k ≠ []
  cover : ∀ x ∈ l, ∃ y ∈ s.certs, y.base.raw = x.base.raw ∧ y.rawSubject = x.rawSubject

theorem contains_iff {s : CertPool} {l : List CertFull} (h : PoolOk s l) (c : CertFull) :
    s.contains c = true ↔ ∃ x ∈ s.certs, x.base.raw = c.base.raw ∧ x.rawSubject = c.rawSubject := by
  unfold CertPool.contains
  rw [List.any_eq_true]
  constructor
  · rintro ⟨i, hi, hx⟩
    obtain ⟨x, h1, h2⟩ := (h.name _ _).1 hi
    rw [h1] at hx
    exact ⟨x, List.mem_of_getElem? h1, by simpa using hx, h2⟩
  · rintro ⟨x, hx, h1, h2⟩
    obtain ⟨i, hi⟩ := List.getElem?_of_mem hx
    refine ⟨i, (h.name _ _).2 ⟨x, hi, h2⟩, ?_⟩
    rw [hi]
    simpa using h1

theorem pool_add {s : CertPool} {l : List CertFull} (h : PoolOk s l) (c : CertFull) : PoolOk (s.add c) (l ++ [c]) := by
  unfold CertPool.add
  by_cases hc : s.contains c = true
  · rw [if_pos hc]
    refine ⟨fun x hx => List.mem_append_left _ (h.sub x hx), h.name, h.keyId, fun x hx => ?_⟩
    rcases List.mem_append.1 hx with hx | hx
    · exact h.cover x hx
    · obtain rfl := List.mem_singleton.1 hx
      exact (contains_iff h x).1 hc
  · rw [if_neg hc]
    have key : ∀ (i : Nat) (x : CertFull), (s.certs ++ [c])[i]? = some x ↔ s.certs[i]? = some x ∨ (i = s.certs.length ∧ x = c) := by
      intro i x
      rw [List.getElem?_append]
      by_cases hi : i < s.certs.length
      · rw [if_pos hi]; constructor
        · exact .inl
        · rintro (h | ⟨h, _⟩)
          · exact h
          · omega
      · rw [if_neg hi]
        have hn : s.certs[i]? = none := List.getElem?_eq_none (by omega)
        rw [hn]
        by_cases he : i = s.certs.length
        · subst he; rw [Nat.sub_self]; simp [eq_comm]
        · have : ([c])[i - s.certs.length]? = none := List.getElem?_eq_none (by simp; omega)
          rw [this]; simp [he]
    refine ⟨?_, ?_, ?_, ?_⟩
    · intro x hx
      rcases List.mem_append.1 hx with hx | hx
      · exact List.mem_append_left _ (h.sub x hx)
      · exact List.mem_append_right _ hx
    · intro k i
      simp only
      by_cases hk : k = c.rawSubject
      · rw [if_pos hk, List.mem_append, List.mem_singleton, h.name]
        constructor
        · rintro (⟨x, h1, h2⟩ | rfl)
          · exact ⟨x, (key _ _).2 (.inl h1), h2⟩
          · exact ⟨c, (key _ _).2 (.inr ⟨rfl, rfl⟩), hk.symm⟩
        · rintro ⟨x, h1, h2⟩
          rcases (key _ _).1 h1 with h1 | ⟨h1, _⟩
          · exact .inl ⟨x, h1, h2⟩
          · exact .inr h1
      · rw [if_neg hk, h.name]
        constructor
        · rintro ⟨x, h1, h2⟩
          exact ⟨x, (key _ _).2 (.inl h1), h2⟩
        · rintro ⟨x, h1, h2⟩
          rcases (key _ _).1 h1 with h1 | ⟨_, rfl⟩
          · exact ⟨x, h1, h2⟩
          · exact absurd h2.symm hk
    · intro k i
      simp only
      by_cases hl : c.ext.subjectKeyId.length > 0
      · rw [if_pos hl]
        have hne : c.ext.subjectKeyId ≠ [] := fun h => by rw [h] at hl; exact Nat.lt_irrefl _ hl
        by_cases hk : k = c.ext.subjectKeyId
        · rw [if_pos hk, List.mem_append, List.mem_singleton, h.keyId]
          constructor
          · rintro (⟨x, h1, h2⟩ | rfl)
            · exact ⟨x, (key _ _).2 (.inl h1), h2⟩
            · exact ⟨c, (key _ _).2 (.inr ⟨rfl, rfl⟩), hk.symm, hk ▸ hne⟩
          · rintro ⟨x, h1, h2⟩
            rcases (key _ _).1 h1 with h1 | ⟨h1, _⟩
            · exact .inl ⟨x, h1, h2⟩
            · exact .inr h1
        · rw [if_neg hk, h.keyId]
          constructor
          · rintro ⟨x, h1, h2⟩
            exact ⟨x, (key _ _).2 (.inl h1), h2⟩
          · rintro ⟨x, h1, h2⟩
            rcases (key _ _).1 h1 with h1 | ⟨_, rfl⟩
            · exact ⟨x, h1, h2⟩
            · exact absurd h2.1.symm hk
      · rw [if_neg hl, h.keyId]
        have he : c.ext.subjectKeyId = [] := List.length_eq_zero_iff.1 (by omega)
        constructor
        · rintro ⟨x, h1, h2⟩
          exact ⟨x, (key _ _).2 (.inl h1), h2⟩
        · rintro ⟨x, h1, h2⟩
          rcases (key _ _).1 h1 with h1 | ⟨_, rfl⟩
          · exact ⟨x, h1, h2⟩
          · exact absurd (h2.1.symm.trans he) h2.2
    · intro x hx
      rcases List.mem_append.1 hx with hx | hx
      · obtain ⟨y, h1, h2⟩ := h.cover x hx
        exact ⟨y, List.mem_append_left _ h1, h2⟩
      · obtain rfl := List.mem_singleton.1 hx
        exact ⟨x, List.mem_append_right _ hx, rfl, rfl⟩

theorem poolOk_of (l : List CertFull) : PoolOk (CertPool.of l) l := by
  have key : ∀ (l l0 : List CertFull) (s : CertPool), PoolOk s l0 → PoolOk (l.foldl CertPool.add s) (l0 ++ l) := by
    intro l
    induction l with
    | nil => intro l0 s h; rw [List.append_nil]; exact h
    | cons c l ih =>
      intro l0 s h
      have := ih _ _ (pool_add h c)
      rwa [List.append_assoc] at this
  have := key l [] {} ⟨by simp, by simp, by simp, by simp⟩
  rwa [List.nil_append] at this

/-- The parents found in a pool. -/
theorem parents_iff {env : ChainEnv} {s : CertPool} {l : List CertFull} (h : PoolOk s l) (c : CertFull) (i : Nat) :
    i ∈ s.parents env c ↔ ∃ p, s.certs[i]? = some p ∧ SignedBy env c p ∧
      ((c.ext.authorityKeyId ≠ [] ∧ (∃ x ∈ s.certs, x.ext.subjectKeyId = c.ext.authorityKeyId) ∧ p.ext.subjectKeyId = c.ext.authorityKeyId) ∨
       (¬ (c.ext.authorityKeyId ≠ [] ∧ ∃ x ∈ s.certs, x.ext.subjectKeyId = c.ext.authorityKeyId) ∧ p.rawSubject = c.rawIssuer)) := by
  have hk : (∃ i, i ∈ (if c.ext.authorityKeyId.length > 0 then s.byKeyId c.ext.authorityKeyId else [])) ↔
      (c.ext.authorityKeyId ≠ [] ∧ ∃ x ∈ s.certs, x.ext.subjectKeyId = c.ext.authorityKeyId) := by
    by_cases ha : c.ext.authorityKeyId.length > 0
    · rw [if_pos ha]
      have hne : c.ext.authorityKeyId ≠ [] := fun h => by rw [h] at ha; exact Nat.lt_irrefl _ ha
      constructor
      · rintro ⟨i, hi⟩
        obtain ⟨x, h1, h2, _⟩ := (h.keyId _ _).1 hi
        exact ⟨hne, x, List.mem_of_getElem? h1, h2⟩
      · rintro ⟨_, x, hx, h2⟩
        obtain ⟨i, hi⟩ := List.getElem?_of_mem hx
        exact ⟨i, (h.keyId _ _).2 ⟨x, hi, h2, hne⟩⟩
    · rw [if_neg ha]
      have : c.ext.authorityKeyId = [] := List.length_eq_zero_iff.1 (by omega)
      simp [this]
  unfold CertPool.parents
  simp only
  rw [List.mem_filter]
  by_cases he : c.ext.authorityKeyId ≠ [] ∧ ∃ x ∈ s.certs, x.ext.subjectKeyId = c.ext.authorityKeyId
  · have hpos : c.ext.authorityKeyId.length > 0 := Nat.pos_of_ne_zero (fun h => he.1 (List.length_eq_zero_iff.1 h))
    obtain ⟨j, hj⟩ := hk.2 he
    rw [if_pos hpos] at hj ⊢
    have hne : (s.byKeyId c.ext.authorityKeyId).length ≠ 0 := fun h => by rw [List.length_eq_zero_iff.1 h] at hj; cases hj
    rw [if_neg hne, h.keyId]
    constructor
    · rintro ⟨⟨p, h1, h2, _⟩, h3⟩
      rw [h1] at h3
      exact ⟨p, h1, (checkSigFrom_iff ..).1 h3, .inl ⟨he.1, he.2, h2⟩⟩
    · rintro ⟨p, h1, h2, h3⟩
      rcases h3 with ⟨_, _, h3⟩ | ⟨h3, _⟩
      · exact ⟨⟨p, h1, h3, he.1⟩, by rw [h1]; exact (checkSigFrom_iff ..).2 h2⟩
      · exact absurd he h3
  · have hlen : (if c.ext.authorityKeyId.length > 0 then s.byKeyId c.ext.authorityKeyId else []).length = 0 := by
      refine Classical.byContradiction (fun h => he (hk.1 ?_))
      exact List.exists_mem_of_ne_nil _ (fun hn => h (by rw [hn]; rfl))
    rw [if_pos hlen, h.name]
    constructor
    · rintro ⟨⟨p, h1, h2⟩, h3⟩
      rw [h1] at h3
      exact ⟨p, h1, (checkSigFrom_iff ..).1 h3, .inr ⟨he, h2⟩⟩
    · rintro ⟨p, h1, h2, h3⟩
      rcases h3 with ⟨a, b, _⟩ | ⟨_, h3⟩
      · exact absurd ⟨a, b⟩ he
      · exact ⟨⟨p, h1, h3⟩, by rw [h1]; exact (checkSigFrom_iff ..).2 h2⟩

end Apk
