import Verif.Proofs.Integrity
/-! # From threaded digest maps to the block specifications -/
namespace Apk
set_option linter.unusedSimpArgs false

/-- Record declared digests. -/
def addDigests (cd : Digests) (l : List (Nat × Bytes)) : Digests := l.foldl (fun m x => mset m (algDigest x.1) x.2) cd

/-- Each declared digest agrees with those recorded before. -/
def Thread : Digests → List (Nat × Bytes) → Prop
  | _, [] => True
  | cd, x :: l => Agrees cd (algDigest x.1) x.2 ∧ Thread (mset cd (algDigest x.1) x.2) l

theorem thread_iff (l : List (Nat × Bytes)) : ∀ cd, Thread cd l ↔ (∀ p ∈ l, Agrees cd (algDigest p.1) p.2) ∧ DigestsAgree l := by
  induction l with
  | nil => intro cd; simp [Thread, DigestsAgree]
  | cons x l ih =>
    intro cd
    rw [Thread, ih]
    constructor
    · rintro ⟨h1, h2, h3⟩
      have key : ∀ p ∈ l, algDigest p.1 = algDigest x.1 → p.2 = x.2 := by
        intro p hp he
        have := h2 p hp x.2 (by rw [he, mget_mset_self])
        exact this.symm
      refine ⟨?_, ?_⟩
      · intro p hp
        rcases List.mem_cons.1 hp with rfl | hp
        · exact h1
        · by_cases he : algDigest p.1 = algDigest x.1
          · rw [he, key p hp he]; exact h1
          · intro d' hd'
            exact h2 p hp d' (by rw [mget_mset, if_neg (fun e => he e.symm)]; exact hd')
      · intro p hp q hq he
        rcases List.mem_cons.1 hp with rfl | hp
        · rcases List.mem_cons.1 hq with rfl | hq
          · rfl
          · exact (key q hq he.symm).symm
        · rcases List.mem_cons.1 hq with hqx | hq
          · rw [hqx] at he ⊢; exact key p hp he
          · exact h3 p hp q hq he
    · rintro ⟨h1, h2⟩
      refine ⟨h1 x (by simp), ?_, fun p hp q hq he => h2 p (List.mem_cons_of_mem _ hp) q (List.mem_cons_of_mem _ hq) he⟩
      intro p hp d' hd'
      rw [mget_mset] at hd'
      by_cases he : algDigest x.1 = algDigest p.1
      · rw [if_pos he] at hd'
        simp only [Option.some.injEq] at hd'
        rw [← hd']
        exact h2 x (by simp) p (List.mem_cons_of_mem _ hp) he
      · rw [if_neg he] at hd'
        exact h1 p (List.mem_cons_of_mem _ hp) d' hd'

theorem addDigests_mget (l : List (Nat × Bytes)) : ∀ cd t, DigestsAgree l →
    (mget (addDigests cd l) t = none ↔ mget cd t = none ∧ ∀ p ∈ l, algDigest p.1 ≠ t) ∧
    ∀ p ∈ l, mget (addDigests cd l) (algDigest p.1) = some p.2 := by
  induction l with
  | nil => intro cd t _; simp [addDigests]
  | cons x l ih =>
    intro cd t ha
    have ha' : DigestsAgree l := fun p hp q hq he => ha p (List.mem_cons_of_mem _ hp) q (List.mem_cons_of_mem _ hq) he
    have e : addDigests cd (x :: l) = addDigests (mset cd (algDigest x.1) x.2) l := rfl
    rw [e]
    constructor
    · rw [(ih _ t ha').1, mget_mset]
      simp only [List.mem_cons, forall_eq_or_imp]
      by_cases he : algDigest x.1 = t
      · simp [he]
      · simp [he]
    · intro p hp
      by_cases hpl : p ∈ l
      · exact (ih _ t ha').2 p hpl
      · have hpx : p = x := by
          rcases List.mem_cons.1 hp with h | h
          · exact h
          · exact absurd h hpl
        subst hpx
        by_cases hex : ∃ q ∈ l, algDigest q.1 = algDigest p.1
        · obtain ⟨q, hq, he⟩ := hex
          have := (ih (mset cd (algDigest p.1) p.2) t ha').2 q hq
          rw [he] at this
          rw [this, ha q (List.mem_cons_of_mem _ hq) p (by simp) he]
        · -- nothing later touches this key
          have key : ∀ (l : List (Nat × Bytes)) (m : Digests) (k : CD), (∀ q ∈ l, algDigest q.1 ≠ k) → mget (addDigests m l) k = mget m k := by
            intro l
            induction l with
            | nil => intros; rfl
            | cons y l ihl =>
              intro m k hk
              change mget (addDigests (mset m (algDigest y.1) y.2) l) k = _
              rw [ihl _ _ (fun q hq => hk q (List.mem_cons_of_mem _ hq)), mget_mset, if_neg (hk y (by simp))]
          rw [key l _ _ (fun q hq he => hex ⟨q, hq, he⟩), mget_mset_self]

theorem addDigests_nodup (l : List (Nat × Bytes)) : ∀ cd : Digests, KeysNodup cd → KeysNodup (addDigests cd l) := by
  induction l with
  | nil => intro cd h; exact h
  | cons x l ih => intro cd h; exact ih _ (mset_nodup h _ _)

/-- The entries of the digest map are exactly the declared digests by type. -/
theorem mem_addDigests {l : List (Nat × Bytes)} (ha : DigestsAgree l) (t : CD) (d : Bytes) :
    (t, d) ∈ addDigests [] l ↔ ∃ p ∈ l, algDigest p.1 = t ∧ p.2 = d := by
  have hnd : KeysNodup (addDigests [] l) := addDigests_nodup l [] (by simp [KeysNodup])
  obtain ⟨h1, h2⟩ := addDigests_mget l [] t ha
  constructor
  · intro h
    have hg := mget_of_mem hnd h
    rcases Classical.em (∃ p ∈ l, algDigest p.1 = t) with ⟨p, hp, he⟩ | hno
    · refine ⟨p, hp, he, ?_⟩
      have := h2 p hp
      rw [he, hg] at this
      exact (Option.some.inj this).symm
    · rw [h1.2 ⟨rfl, fun p hp he => hno ⟨p, hp, he⟩⟩] at hg; cases hg
  · rintro ⟨p, hp, rfl, rfl⟩
    exact mget_mem (h2 p hp)

theorem addDigests_ne_nil {l : List (Nat × Bytes)} : addDigests [] l ≠ [] ↔ l ≠ [] := by
  have key : ∀ (l : List (Nat × Bytes)) (cd : Digests), cd ≠ [] → addDigests cd l ≠ [] := by
    intro l
    induction l with
    | nil => intro cd h; exact h
    | cons x l ih => intro cd _; exact ih _ (mset_ne_nil _ _ _)
  cases l with
  | nil => simp [addDigests]
  | cons x l => simp only [ne_eq, reduceCtorEq, not_false_eq_true, iff_true]; exact key l _ (mset_ne_nil _ _ _)

theorem v2Signers_thread {env : Env} {maxSdk : Int} {present : Nat → Prop} (items : List Bytes) : ∀ {cd cd' : Digests} {vs},
    V2SignersOK env maxSdk present cd items vs cd' ↔
      ∃ l : List (Bytes × V2View), items = l.map (·.1) ∧ vs = l.map (fun p => (p.2.chain, p.2.alg, p.2.digest)) ∧
        (∀ p ∈ l, V2SignerOK env maxSdk present p.1 p.2.chain p.2.alg p.2.digest) ∧
        Thread cd (v2Digests (l.map (·.2))) ∧ cd' = addDigests cd (v2Digests (l.map (·.2))) := by
  induction items with
  | nil =>
    intro cd cd' vs
    rw [V2SignersOK]
    constructor
    · rintro ⟨rfl, rfl⟩; exact ⟨[], rfl, rfl, by simp, trivial, rfl⟩
    · rintro ⟨l, h1, h2, _, _, h3⟩
      have : l = [] := by cases l with | nil => rfl | cons => cases h1
      subst this
      exact ⟨h2, h3⟩
  | cons s ss ih =>
    intro cd cd' vs
    rw [V2SignersOK]
    constructor
    · rintro ⟨chain, a, d, vs', rfl, h1, h2, h3⟩
      obtain ⟨l, rfl, rfl, e3, e4, e5⟩ := ih.1 h3
      refine ⟨(s, ⟨chain, a, d⟩) :: l, rfl, rfl, ?_, ⟨h2, e4⟩, e5⟩
      intro p hp
      rcases List.mem_cons.1 hp with rfl | hp
      · exact h1
      · exact e3 p hp
    · rintro ⟨l, h1, h2, h3, h4, h5⟩
      cases l with
      | nil => cases h1
      | cons p l =>
        simp only [List.map_cons, List.cons.injEq] at h1 h2
        obtain ⟨rfl, rfl⟩ := h1
        subst h2
        refine ⟨_, _, _, _, rfl, h3 p (by simp), h4.1, ih.2 ⟨l, rfl, rfl, fun q hq => h3 q (List.mem_cons_of_mem _ hq), h4.2, h5⟩⟩

theorem V2BlockOK_iff {env : Env} {maxSdk : Int} {present : Nat → Prop} {block : Bytes} {cd' : Digests}
    {vs : List (List Cert × Nat × Bytes)} :
    V2BlockOK env maxSdk present block vs cd' ↔
      ∃ ws : List V2View, vs = ws.map (fun v => (v.chain, v.alg, v.digest)) ∧ V2Block env maxSdk present block ws ∧
        cd' = addDigests [] (v2Digests ws) := by
  constructor
  · rintro ⟨signers, tail, items, h1, h2, h3, h4⟩
    obtain ⟨l, rfl, rfl, e3, e4, e5⟩ := (v2Signers_thread items).1 h4
    refine ⟨l.map (·.2), by simp, ⟨signers, tail, l, h1, h2, h3, rfl, e3, ?_⟩, e5⟩
    exact ((thread_iff _ _).1 e4).2
  · rintro ⟨ws, rfl, ⟨signers, tail, l, h1, h2, h3, rfl, h4, h5⟩, rfl⟩
    refine ⟨signers, tail, _, h1, h2, h3, (v2Signers_thread _).2 ⟨l, rfl, by simp, h4, (thread_iff _ _).2 ⟨?_, h5⟩, rfl⟩⟩
    intro p _ d' hd'; cases hd'

theorem v3Signers_thread {env : Env} {maxSdk rot : Int} (items : List Bytes) : ∀ {cd cd' : Digests} {vs},
    V3SignersOK env maxSdk rot cd items vs cd' ↔
      ∃ l : List (Bytes × V3View), items = l.map (·.1) ∧ vs = l.map (·.2) ∧
        (∀ p ∈ l, V3SignerOK env maxSdk rot p.1 p.2) ∧
        Thread cd (v3Digests vs) ∧ cd' = addDigests cd (v3Digests vs) := by
  induction items with
  | nil =>
    intro cd cd' vs
    rw [V3SignersOK]
    constructor
    · rintro ⟨rfl, rfl⟩; exact ⟨[], rfl, rfl, by simp, trivial, rfl⟩
    · rintro ⟨l, h1, h2, _, _, h3⟩
      have : l = [] := by cases l with | nil => rfl | cons => cases h1
      subst this
      rw [h2] at h3
      exact ⟨h2, h3⟩
  | cons s ss ih =>
    intro cd cd' vs
    rw [V3SignersOK]
    constructor
    · rintro ⟨v, vs', rfl, h1, h2, h3⟩
      obtain ⟨l, rfl, rfl, e3, e4, e5⟩ := ih.1 h3
      refine ⟨(s, v) :: l, rfl, rfl, ?_, ⟨h2, e4⟩, e5⟩
      intro p hp
      rcases List.mem_cons.1 hp with rfl | hp
      · exact h1
      · exact e3 p hp
    · rintro ⟨l, h1, h2, h3, h4, h5⟩
      cases l with
      | nil => cases h1
      | cons p l =>
        simp only [List.map_cons, List.cons.injEq] at h1
        obtain ⟨rfl, rfl⟩ := h1
        subst h2
        exact ⟨_, _, rfl, h3 p (by simp), h4.1, ih.2 ⟨l, rfl, rfl, fun q hq => h3 q (List.mem_cons_of_mem _ hq), h4.2, h5⟩⟩

theorem V3BlockOK_iff {env : Env} {maxSdk rot : Int} {block : Bytes} {cd' : Digests} {vs : List V3View} :
    V3BlockOK env maxSdk rot block vs [] cd' ↔ V3Block env maxSdk rot block vs ∧ cd' = addDigests [] (v3Digests vs) := by
  constructor
  · rintro ⟨signers, tail, items, h1, h2, h3, h4⟩
    obtain ⟨l, rfl, rfl, e3, e4, e5⟩ := (v3Signers_thread items).1 h4
    exact ⟨⟨signers, tail, l, h1, h2, h3, rfl, e3, ((thread_iff _ _).1 e4).2⟩, e5⟩
  · rintro ⟨⟨signers, tail, l, h1, h2, h3, rfl, h4, h5⟩, rfl⟩
    refine ⟨signers, tail, _, h1, h2, h3, (v3Signers_thread _).2 ⟨l, rfl, rfl, h4, (thread_iff _ _).2 ⟨?_, h5⟩, rfl⟩⟩
    intro p _ d' hd'; cases hd'

theorem algDigest_ne (a : Nat) : algDigest a ≠ .nonChunked256 := by
  unfold algDigest; split
  · simp
  · split <;> simp

/-- Integrity of the declared digests. -/
theorem integrity_declared (env : Env) {file head area cd rec : Bytes} (h : ApkLayout file head area cd rec)
    {ds : List (Nat × Bytes)} (ha : DigestsAgree ds) (hne : ds ≠ []) (r : Core) :
    (DigestsMatch env (signedSections head cd rec) ds →
      verifyIntegrity env file (layoutFound head area cd rec) (addDigests [] ds) r = .ok (r, true)) ∧
    (¬ DigestsMatch env (signedSections head cd rec) ds →
      ∃ es ok, es ≠ [] ∧ verifyIntegrity env file (layoutFound head area cd rec) (addDigests [] ds) r =
        .ok ({ r with errors := r.errors ++ es }, ok)) := by
  have hiff : (∀ p ∈ addDigests [] ds, contentDigest env p.1 (signedSections head cd rec) = some p.2) ↔
      DigestsMatch env (signedSections head cd rec) ds := by
    constructor
    · intro hh p hp
      exact hh (algDigest p.1, p.2) ((mem_addDigests ha _ _).2 ⟨p, hp, rfl, rfl⟩)
    · rintro hh ⟨t, d⟩ hp
      obtain ⟨q, hq, rfl, rfl⟩ := (mem_addDigests ha t d).1 hp
      exact hh q hq
  have hnc : ∀ p ∈ addDigests [] ds, p.1 ≠ .nonChunked256 := by
    rintro ⟨t, d⟩ hp
    obtain ⟨q, _, rfl, _⟩ := (mem_addDigests ha t d).1 hp
    exact algDigest_ne _
  obtain ⟨k1, k2⟩ := verifyIntegrity_spec env h (addDigests_ne_nil.2 hne) hnc r
  exact ⟨fun hh => k1 (hiff.2 hh), fun hh => k2 (fun h' => hh (hiff.1 h'))⟩

end Apk
