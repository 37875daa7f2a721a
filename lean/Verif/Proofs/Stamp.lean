import Verif.Model.Stamp
import Verif.Spec.Stamp
import Verif.Proofs.Signer
import Verif.Proofs.Lineage
/-! # Source stamps: proofs -/
namespace Apk

/-! ## The signed message -/

/-- The canonical sorted list of a set of digests. -/
def canonDigests (look : CD → Option Bytes) : Digests :=
  ((look .chunked256).map (fun d => (CD.chunked256, d))).toList ++
  ((look .chunked512).map (fun d => (CD.chunked512, d))).toList ++
  ((look .verity256).map (fun d => (CD.verity256, d))).toList ++
  ((look .nonChunked256).map (fun d => (CD.nonChunked256, d))).toList

theorem insertDigest_canon (look : CD → Option Bytes) (p : CD × Bytes) (h : look p.1 = none) :
    insertDigest p (canonDigests look) = canonDigests (fun t => if t = p.1 then some p.2 else look t) := by
  obtain ⟨t, d⟩ := p
  simp only at h
  unfold canonDigests
  cases t <;> rw [h] <;>
    cases h1 : look .chunked256 <;> cases h2 : look .chunked512 <;> cases h3 : look .verity256 <;>
    cases h4 : look .nonChunked256 <;> simp_all [insertDigest, CD.code]

theorem canonDigests_congr {f g : CD → Option Bytes} (h : ∀ t, f t = g t) : canonDigests f = canonDigests g := by
  rw [show f = g from funext h]

theorem sortDigests_fold (l : Digests) : ∀ (look : CD → Option Bytes), KeysNodup l → (∀ p ∈ l, look p.1 = none) →
    l.foldl (fun acc p => insertDigest p acc) (canonDigests look) =
      canonDigests (fun t => (mget l t).or (look t)) := by
  induction l with
  | nil => intro look _ _; exact canonDigests_congr (fun t => by simp)
  | cons p l ih =>
    intro look hnd hl
    obtain ⟨hp, hnd'⟩ := List.nodup_cons.1 (show (p.1 :: l.map (·.1)).Nodup from hnd)
    rw [List.foldl_cons, insertDigest_canon look p (hl p (by simp)), ih _ hnd']
    · refine canonDigests_congr (fun t => ?_)
      rw [mget_cons]
      by_cases ht : p.1 = t
      · have hn : mget l t = none := mget_none.2 (fun q hq he => hp (by rw [ht, ← he]; exact List.mem_map.2 ⟨q, hq, rfl⟩))
        rw [hn]; simp [ht]
      · simp only [ht, if_false]
        rw [if_neg (fun h => ht h.symm)]
    · intro q hq
      have : q.1 ≠ p.1 := fun he => hp (by rw [← he]; exact List.mem_map.2 ⟨q, hq, rfl⟩)
      simp only [this, if_false]
      exact hl q (by simp [hq])

theorem sortDigests_eq {l : Digests} (h : KeysNodup l) : sortDigests l = canonDigests (mget l) := by
  have := sortDigests_fold l (fun _ => none) h (fun _ _ => rfl)
  simpa [sortDigests, canonDigests] using this

theorem KeysNodup.perm {κ ν : Type} {l l' : List (κ × ν)} (h : KeysNodup l) (hp : l'.Perm l) : KeysNodup l' :=
  (List.Perm.nodup_iff (hp.map Prod.fst)).2 h

theorem mget_perm {κ ν : Type} [DecidableEq κ] {l l' : List (κ × ν)} (h : KeysNodup l) (hp : l'.Perm l) (k : κ) :
    mget l' k = mget l k := by
  cases hg : mget l k with
  | none =>
    rw [mget_none] at hg ⊢
    exact fun p hm => hg p (hp.mem_iff.1 hm)
  | some v => exact mget_of_mem (h.perm hp) (hp.mem_iff.2 (mget_mem hg))

theorem canonDigests_msg (look : CD → Option Bytes) :
    ((canonDigests look).map encodeDigestPair).flatten = stampMsg look := by
  unfold canonDigests stampMsg
  cases look .chunked256 <;> cases look .chunked512 <;> cases look .verity256 <;> cases look .nonChunked256 <;>
    simp [optMsg, pairMsg, encodeDigestPair, CD.code]

theorem signatureSchemeDigest_eq (env : Env) {cd : Digests} (h : KeysNodup cd) :
    signatureSchemeDigest env cd = stampMsg (mget cd) := by
  unfold signatureSchemeDigest
  rw [sortDigests_eq (h.perm (env.cdOrder_perm cd)), canonDigests_msg]
  congr 1
  exact funext (mget_perm h (env.cdOrder_perm cd))

theorem pairMsg_eq_lp (code : Nat) (d : Bytes) : pairMsg code d = lp (leBytes 4 code ++ lp d) := by
  have : 8 + d.length = (leBytes 4 code ++ lp d).length := by simp; omega
  unfold pairMsg lp at *
  rw [this]; simp

/-- The items of the message. -/
def stampItems (look : CD → Option Bytes) : List Bytes :=
  (canonDigests look).map (fun p => leBytes 4 p.1.code ++ lp p.2)

theorem stampMsg_items (look : CD → Option Bytes) : stampMsg look = lpSeq (stampItems look) := by
  rw [← canonDigests_msg, stampItems, lpSeq, List.map_map]
  congr 1
  refine List.map_congr_left (fun p _ => ?_)
  have := pairMsg_eq_lp p.1.code p.2
  simpa [pairMsg, encodeDigestPair] using this

theorem canonDigests_mem {look : CD → Option Bytes} {p : CD × Bytes} : p ∈ canonDigests look ↔ look p.1 = some p.2 := by
  obtain ⟨t, d⟩ := p
  unfold canonDigests
  cases t <;> simp [eq_comm]

theorem CD.code_inj {a b : CD} (h : a.code = b.code) : a = b := by
  cases a <;> cases b <;> first | rfl | (simp [CD.code] at h)

theorem CD.code_lt (a : CD) : a.code < 2 ^ 31 := by cases a <;> decide

theorem stampMsg_inj {look look' : CD → Option Bytes} (h1 : ∀ t d, look t = some d → d.length + 8 < 2 ^ 31)
    (h2 : ∀ t d, look' t = some d → d.length + 8 < 2 ^ 31) (h : stampMsg look = stampMsg look') : look = look' := by
  rw [stampMsg_items, stampMsg_items] at h
  have small : ∀ {l : CD → Option Bytes}, (∀ t d, l t = some d → d.length + 8 < 2 ^ 31) → ∀ x ∈ stampItems l, Small x := by
    intro l hl x hx
    obtain ⟨p, hp, rfl⟩ := List.mem_map.1 hx
    have := hl _ _ (canonDigests_mem.1 hp)
    unfold Small
    simp; omega
  have hi := lpSeq_inj (small h1) (small h2) h
  have key : ∀ {l l' : CD → Option Bytes}, (∀ t d, l t = some d → d.length + 8 < 2 ^ 31) →
      (∀ t d, l' t = some d → d.length + 8 < 2 ^ 31) → stampItems l = stampItems l' →
      ∀ t d, l t = some d → l' t = some d := by
    intro l l' hl hl' he t d ht
    have hm : leBytes 4 t.code ++ lp d ∈ stampItems l := List.mem_map.2 ⟨(t, d), canonDigests_mem.2 ht, rfl⟩
    rw [he] at hm
    obtain ⟨⟨t', d'⟩, hp, hq⟩ := List.mem_map.1 hm
    have ht' := canonDigests_mem.1 hp
    simp only at hq ht'
    have hq1 := congrArg (List.take 4) hq
    have hq2 := congrArg (List.drop 4) hq
    rw [take_append_len (by simp), take_append_len (by simp)] at hq1
    rw [drop_append_len (by simp), drop_append_len (by simp)] at hq2
    have hc := leBytes_inj hq1 (by have := t'.code_lt; omega) (by have := t.code_lt; omega)
    have ht2 := CD.code_inj hc
    have hd : d' = d := by
      have a1 := rdLP_lp d' [] (by unfold Small; have := hl' _ _ ht'; omega)
      have a2 := rdLP_lp d [] (by unfold Small; have := hl _ _ ht; omega)
      rw [hq2] at a1
      rw [a1] at a2
      injection a2 with a2
      exact (Prod.mk.inj a2).1
    rw [← ht2, ← hd]; exact ht'
  funext t
  cases ht : look t with
  | some d => exact (key h1 h2 hi t d ht).symm
  | none =>
    cases ht' : look' t with
    | none => rfl
    | some d => rw [key h2 h1 hi.symm t d ht'] at ht; cases ht

/-! ## The signature list -/

/-- The map built from the records. -/
def sigMap (m : List (Nat × Bytes)) : List Bytes → List (Nat × Bytes)
  | [] => m
  | rec :: recs =>
    sigMap (if isSupportedAlgo (recAlg rec) then
      match rdLP (rec.drop 4) with
      | .ok (s, _) => mset m (recAlg rec) s
      | .error _ => m
    else m) recs

/-- `r'` is `r` with more warnings. -/
def StampRes.Warned (r r' : StampRes) : Prop :=
  ∃ ws, r' = { r with warnings := r.warnings ++ ws } ∧ SW.stampFileMissing ∉ ws

theorem StampRes.Warned.refl (r : StampRes) : r.Warned r := ⟨[], by simp, by simp⟩
theorem StampRes.Warned.trans {a b c : StampRes} (h : a.Warned b) (h' : b.Warned c) : a.Warned c := by
  obtain ⟨w1, rfl, n1⟩ := h
  obtain ⟨w2, rfl, n2⟩ := h'
  exact ⟨w1 ++ w2, by simp, by simp [n1, n2]⟩
theorem StampRes.Warned.errors {a b : StampRes} (h : a.Warned b) : b.errors = a.errors := by
  obtain ⟨w1, rfl, _⟩ := h; rfl

/-- `r'` has more errors than `r`. -/
def StampRes.Failed (r r' : StampRes) : Prop := ∃ es, es ≠ [] ∧ r'.errors = r.errors ++ es

theorem StampRes.Failed.addError (r : StampRes) (e : SE) : r.Failed (r.addError e) := ⟨[e], by simp, rfl⟩
theorem StampRes.Failed.of_warned {a b c : StampRes} (h : a.Warned b) (h' : b.Failed c) : a.Failed c := by
  obtain ⟨es, h1, h2⟩ := h'
  exact ⟨es, h1, by rw [h2, h.errors]⟩
theorem StampRes.Failed.ne {a b : StampRes} (h : a.Failed b) : b.errors ≠ [] := by
  obtain ⟨es, h1, h2⟩ := h
  rw [h2]; simp [h1]

theorem rdU32_of_len {b : Bytes} (h : 4 ≤ b.length) : rdU32 b = some (recAlg b, b.drop 4) := by
  unfold rdU32 recAlg
  rw [if_neg (by omega)]

theorem stampFold_ok (recs : List Bytes) : ∀ (r : StampRes) (m : List (Nat × Bytes)), StampSigsWF recs →
    ∃ r', foldGo stampSigStep (r, m) recs = .ok ((r', sigMap m recs), true) ∧ r.Warned r' := by
  induction recs with
  | nil => intro r m _; exact ⟨r, rfl, .refl r⟩
  | cons rec recs ih =>
    intro r m hw
    obtain ⟨hl, hb⟩ := hw rec (by simp)
    have hw' : StampSigsWF recs := fun x hx => hw x (by simp [hx])
    unfold foldGo stampSigStep sigMap
    simp only [rdU32_of_len hl]
    cases hs : isSupportedAlgo (recAlg rec) with
    | false =>
      simp only [bind, Except.bind, Bool.not_false, if_true]
      obtain ⟨r', h1, h2⟩ := ih (r.addWarning .unsupportedAlgo) m hw'
      exact ⟨r', h1, StampRes.Warned.trans ⟨[.unsupportedAlgo], rfl, by simp⟩ h2⟩
    | true =>
      obtain ⟨s, hs'⟩ := hb ((algStrength_pos _).2 ((isSupportedAlgo_iff _).1 hs))
      obtain ⟨rest, hrd⟩ := recBody_rdLP hs'
      simp only [bind, Except.bind, Bool.not_true, hrd]
      obtain ⟨r', h1, h2⟩ := ih r (mset m (recAlg rec) s) hw'
      exact ⟨r', h1, h2⟩

theorem stampFold_fail (recs : List Bytes) : ∀ (r : StampRes) (m : List (Nat × Bytes)), ¬ StampSigsWF recs →
    ∃ r' m', foldGo stampSigStep (r, m) recs = .ok ((r', m'), false) ∧ r.Failed r' := by
  induction recs with
  | nil => intro r m h; exact absurd (fun x hx => by cases hx) h
  | cons rec recs ih =>
    intro r m hw
    unfold foldGo stampSigStep
    by_cases hl : 4 ≤ rec.length
    · simp only [rdU32_of_len hl]
      cases hs : isSupportedAlgo (recAlg rec) with
      | false =>
        simp only [bind, Except.bind, Bool.not_false, if_true]
        obtain ⟨r', m', h1, h2⟩ := ih (r.addWarning .unsupportedAlgo) m (fun h => hw (by
          intro x hx
          rcases List.mem_cons.1 hx with rfl | hx
          · refine ⟨hl, fun hp => ?_⟩
            rw [(algStrength_zero _).1 hs] at hp; omega
          · exact h x hx))
        exact ⟨r', m', h1, StampRes.Failed.of_warned ⟨[.unsupportedAlgo], rfl, by simp⟩ h2⟩
      | true =>
        simp only [bind, Except.bind, Bool.not_true]
        cases hrd : rdLP (rec.drop 4) with
        | error e => exact ⟨_, _, rfl, .addError r _⟩
        | ok q =>
          obtain ⟨s, rest⟩ := q
          obtain ⟨r', m', h1, h2⟩ := ih r (mset m (recAlg rec) s) (fun h => hw (by
            intro x hx
            rcases List.mem_cons.1 hx with rfl | hx
            · exact ⟨hl, fun _ => ⟨s, rdLP_recBody hrd⟩⟩
            · exact h x hx))
          exact ⟨r', m', h1, h2⟩
    · have : rdU32 rec = none := rdU32_none.2 (by omega)
      simp only [this, bind, Except.bind]
      exact ⟨_, _, rfl, .addError r _⟩

theorem RecBody.unique {rec s s' : Bytes} (h : RecBody rec s) (h' : RecBody rec s') : s = s' := by
  obtain ⟨r1, h1⟩ := recBody_rdLP h
  obtain ⟨r2, h2⟩ := recBody_rdLP h'
  rw [h1] at h2
  injection h2 with h2
  exact (Prod.mk.inj h2).1

theorem sigMap_get (recs : List Bytes) : ∀ (m : List (Nat × Bytes)), StampSigsWF recs → ∀ a s,
    (mget (sigMap m recs) a = some s ↔
      StampSig recs a s ∨ ((∀ x ∈ recs, recAlg x = a → algStrength a = 0) ∧ mget m a = some s)) := by
  induction recs with
  | nil =>
    intro m _ a s
    unfold sigMap StampSig
    constructor
    · intro h; exact .inr ⟨(fun x hx => by cases hx), h⟩
    · rintro (⟨_, pre, rec, post, h, _⟩ | ⟨_, h⟩)
      · cases pre <;> cases h
      · exact h
  | cons rec recs ih =>
    intro m hw a s
    obtain ⟨hl, hb⟩ := hw rec (by simp)
    have hw' : StampSigsWF recs := fun x hx => hw x (by simp [hx])
    have push : StampSig recs a s → StampSig (rec :: recs) a s := by
      rintro ⟨h0, pre, x, post, rfl, h⟩
      exact ⟨h0, rec :: pre, x, post, rfl, h⟩
    have pop : StampSig (rec :: recs) a s → StampSig recs a s ∨
        (0 < algStrength a ∧ recAlg rec = a ∧ RecBody rec s ∧ ∀ x ∈ recs, recAlg x ≠ a) := by
      rintro ⟨h0, pre, x, post, he, h1, h2, h3⟩
      cases pre with
      | nil =>
        rw [List.nil_append] at he
        injection he with he1 he2
        subst he1 he2
        exact .inr ⟨h0, h1, h2, h3⟩
      | cons p pre =>
        rw [List.cons_append] at he
        injection he with he1 he2
        exact .inl ⟨h0, pre, x, post, he2, h1, h2, h3⟩
    unfold sigMap
    rw [ih _ hw' a s]
    cases hs : isSupportedAlgo (recAlg rec) with
    | false =>
      have h0 := (algStrength_zero _).1 hs
      simp only [Bool.false_eq_true, if_false]
      constructor
      · rintro (h | ⟨h1, h2⟩)
        · exact .inl (push h)
        · refine .inr ⟨fun x hx hxa => ?_, h2⟩
          rcases List.mem_cons.1 hx with rfl | hx
          · rw [← hxa]; exact h0
          · exact h1 x hx hxa
      · rintro (h | ⟨h1, h2⟩)
        · rcases pop h with h | ⟨hp, ha, _⟩
          · exact .inl h
          · rw [ha] at h0; omega
        · exact .inr ⟨fun x hx => h1 x (by simp [hx]), h2⟩
    | true =>
      have hpos := (algStrength_pos _).2 ((isSupportedAlgo_iff _).1 hs)
      obtain ⟨s0, hs0⟩ := hb hpos
      obtain ⟨rest, hrd⟩ := recBody_rdLP hs0
      simp only [if_true, hrd]
      rw [mget_mset]
      constructor
      · rintro (h | ⟨h1, h2⟩)
        · exact .inl (push h)
        · by_cases ha : recAlg rec = a
          · rw [if_pos ha] at h2
            injection h2 with h2
            subst h2
            refine .inl ⟨by rw [← ha]; exact hpos, [], rec, recs, rfl, ha, hs0, fun x hx hxa => ?_⟩
            have := h1 x hx hxa
            rw [ha] at hpos; omega
          · rw [if_neg ha] at h2
            refine .inr ⟨fun x hx hxa => ?_, h2⟩
            rcases List.mem_cons.1 hx with rfl | hx
            · exact absurd hxa ha
            · exact h1 x hx hxa
      · rintro (h | ⟨h1, h2⟩)
        · rcases pop h with h | ⟨hp, ha, hbd, hn⟩
          · exact .inl h
          · exact .inr ⟨fun x hx hxa => absurd hxa (hn x hx), by rw [if_pos ha, RecBody.unique hs0 hbd]⟩
        · have ha : recAlg rec ≠ a := fun ha => by
            have := h1 rec (by simp) ha
            rw [ha] at hpos; omega
          exact .inr ⟨fun x hx => h1 x (by simp [hx]), by rw [if_neg ha]; exact h2⟩

theorem sigMap_nodup (recs : List Bytes) : ∀ (m : List (Nat × Bytes)), KeysNodup m → KeysNodup (sigMap m recs) := by
  induction recs with
  | nil => intro m h; exact h
  | cons rec recs ih =>
    intro m h
    unfold sigMap
    apply ih
    split
    · split
      · exact mset_nodup h _ _
      · exact h
    · exact h

theorem sigMap_mem {recs : List Bytes} (hw : StampSigsWF recs) {p : Nat × Bytes} :
    p ∈ sigMap [] recs ↔ StampSig recs p.1 p.2 := by
  have hnd := sigMap_nodup recs [] (by simp [KeysNodup])
  have := sigMap_get recs [] hw p.1 p.2
  simp only [mget_nil, reduceCtorEq, and_false, or_false] at this
  rw [← this]
  exact ⟨fun h => mget_of_mem hnd h, fun h => mget_mem h⟩

/-! ## The choice of signatures -/

theorem platform_eq (a : Nat) : getMinSdkVersionJca a = platformOf a := by
  by_cases ha : a ∈ algIds
  · exact (by decide : ∀ a ∈ algIds, getMinSdkVersionJca a = platformOf a) a ha
  · simp only [algIds, List.mem_cons, List.not_mem_nil, or_false, not_or] at ha
    unfold getMinSdkVersionJca platformOf
    rw [if_neg, if_neg, if_neg, if_neg, if_neg, if_neg]
    · rfl
    all_goals
      simp only [List.mem_cons, List.not_mem_nil, or_false, sigRsaPssWithSha256, sigRsaPssWithSha512, sigRsaPkcs1V15WithSha256,
        sigRsaPkcs1V15WithSha512, sigDsaWithSha256, sigVerityRsaPkcs1V15WithSha256, sigVerityDsaWithSha256, sigEcdsaWithSha256,
        sigEcdsaWithSha512, sigVerityEcdsaWithSha256, not_or]
      simp only [ha, not_false_eq_true, and_self]

theorem platform_small {a : Nat} (h : 0 < algStrength a) : platformOf a ≤ 23 := by
  have : ∀ a ∈ algIds, platformOf a ≤ 23 := by decide
  exact this a ((algStrength_pos a).1 h)

/-- Invariant of the choice. -/
structure FilterInv (maxSdk : Int) (done : List (Nat × Bytes)) (st : Candidates × Int) : Prop where
  cand : ∀ c ∈ st.1, c.1 = platformOf c.2.1 ∧ c.2 ∈ done ∧ c.1 ≤ maxSdk ∧
    ∀ q ∈ done, platformOf q.1 = c.1 → algStrength q.1 ≤ algStrength c.2.1
  nodup : KeysNodup st.1
  cover : ∀ q ∈ done, platformOf q.1 ≤ maxSdk → ∃ c ∈ st.1, c.1 = platformOf q.1
  low : ∀ q ∈ done, platformOf q.1 ≤ maxSdk → st.2 ≤ platformOf q.1
  att : st.2 = maxInt32 ∨ ∃ q ∈ done, platformOf q.1 ≤ maxSdk ∧ platformOf q.1 = st.2

theorem filterStep_inv {maxSdk : Int} {done : List (Nat × Bytes)} {st : Candidates × Int} {p : Nat × Bytes}
    (hi : FilterInv maxSdk done st) (hsup : ∀ q ∈ done, 0 < algStrength q.1) (hp : 0 < algStrength p.1) :
    ∃ st', filterStep maxSdk st p = .ok st' ∧ FilterInv maxSdk (done ++ [p]) st' := by
  obtain ⟨cands, mv⟩ := st
  unfold filterStep
  simp only [platform_eq]
  by_cases hm : platformOf p.1 > maxSdk
  · rw [if_pos hm]
    refine ⟨_, rfl, ⟨fun c hc => ?_, hi.nodup, fun q hq hle => ?_, fun q hq hle => ?_, ?_⟩⟩
    · obtain ⟨h1, h2, h3, h4⟩ := hi.cand c hc
      refine ⟨h1, by simp [h2], h3, fun q hq hqe => ?_⟩
      rcases List.mem_append.1 hq with hq | hq
      · exact h4 q hq hqe
      · rw [List.mem_singleton.1 hq] at hqe; omega
    · rcases List.mem_append.1 hq with hq | hq
      · exact hi.cover q hq hle
      · rw [List.mem_singleton.1 hq] at hle; omega
    · rcases List.mem_append.1 hq with hq | hq
      · exact hi.low q hq hle
      · rw [List.mem_singleton.1 hq] at hle; omega
    · rcases hi.att with h | ⟨q, hq, h⟩
      · exact .inl h
      · exact .inr ⟨q, by simp [hq], h⟩
  · rw [if_neg hm]
    have hlow : ∀ cands', FilterInv maxSdk done (cands, mv) →
        (∀ q ∈ done ++ [p], platformOf q.1 ≤ maxSdk →
          ((cands', if platformOf p.1 < mv then platformOf p.1 else mv) : Candidates × Int).2 ≤ platformOf q.1) := by
      intro cands' _ q hq hle
      simp only
      rcases List.mem_append.1 hq with hq | hq
      · have := hi.low q hq hle
        simp only at this
        split <;> omega
      · rw [List.mem_singleton.1 hq]; split <;> omega
    have hatt : ∀ cands', (((cands', if platformOf p.1 < mv then platformOf p.1 else mv) : Candidates × Int).2 = maxInt32 ∨
        ∃ q ∈ done ++ [p], platformOf q.1 ≤ maxSdk ∧
          platformOf q.1 = ((cands', if platformOf p.1 < mv then platformOf p.1 else mv) : Candidates × Int).2) := by
      intro cands'
      simp only
      by_cases hlt : platformOf p.1 < mv
      · rw [if_pos hlt]; exact .inr ⟨p, by simp, by omega, rfl⟩
      · rw [if_neg hlt]
        rcases hi.att with h | ⟨q, hq, h⟩
        · exact .inl h
        · exact .inr ⟨q, by simp [hq], h⟩
    -- setting the candidate of `p`'s platform to `p`
    have hset : (∀ q ∈ done, platformOf q.1 = platformOf p.1 → algStrength q.1 ≤ algStrength p.1) →
        FilterInv maxSdk (done ++ [p]) (mset cands (platformOf p.1) p, if platformOf p.1 < mv then platformOf p.1 else mv) := by
      intro hbest
      refine ⟨fun c hc => ?_, mset_nodup hi.nodup _ _, fun q hq hle => ?_, hlow _ hi, hatt _⟩
      · have hg := mget_of_mem (mset_nodup hi.nodup (platformOf p.1) p) (k := c.1) (v := c.2) hc
        rw [mget_mset] at hg
        by_cases hk : platformOf p.1 = c.1
        · rw [if_pos hk] at hg
          injection hg with hg
          refine ⟨by rw [← hg, hk], by simp [hg], by omega, fun q hq hqe => ?_⟩
          rw [← hg]
          rcases List.mem_append.1 hq with hq | hq
          · exact hbest q hq (by omega)
          · rw [List.mem_singleton.1 hq]; exact Nat.le_refl _
        · rw [if_neg hk] at hg
          obtain ⟨h1, h2, h3, h4⟩ := hi.cand _ (mget_mem hg)
          refine ⟨h1, by simp [h2], h3, fun q hq hqe => ?_⟩
          rcases List.mem_append.1 hq with hq | hq
          · exact h4 q hq hqe
          · rw [List.mem_singleton.1 hq] at hqe; exact absurd hqe hk
      · have hk : ∃ v, mget (mset cands (platformOf p.1) p) (platformOf q.1) = some v := by
          rw [mget_mset]
          by_cases hk : platformOf p.1 = platformOf q.1
          · exact ⟨p, by rw [if_pos hk]⟩
          · rw [if_neg hk]
            rcases List.mem_append.1 hq with hq | hq
            · obtain ⟨c, hc, hce⟩ := hi.cover q hq hle
              exact ⟨c.2, mget_of_mem hi.nodup (by rw [← hce]; exact hc)⟩
            · rw [List.mem_singleton.1 hq] at hk; exact absurd rfl hk
        obtain ⟨v, hv⟩ := hk
        exact ⟨_, mget_mem hv, rfl⟩
    cases hg : mget cands (platformOf p.1) with
    | none =>
      refine ⟨_, rfl, hset (fun q hq hqe => ?_)⟩
      obtain ⟨c, hc, hce⟩ := hi.cover q hq (by omega)
      rw [mget_none] at hg
      exact absurd (hce.trans hqe) (hg c hc)
    | some c =>
      simp only [bind, Except.bind]
      obtain ⟨h1, h2, h3, h4⟩ := hi.cand _ (mget_mem hg)
      simp only at h1 h2 h3 h4
      obtain ⟨cmp, hcmp, hpos, _⟩ := compareAlgos_spec hp (hsup _ h2)
      rw [hcmp]
      simp only
      by_cases hc : cmp > 0
      · rw [if_pos hc]
        refine ⟨_, rfl, hset (fun q hq hqe => ?_)⟩
        have := h4 q hq hqe
        have := hpos.1 hc
        omega
      · rw [if_neg hc]
        refine ⟨_, rfl, ⟨fun d hd => ?_, hi.nodup, fun q hq hle => ?_, hlow _ hi, hatt _⟩⟩
        · obtain ⟨g1, g2, g3, g4⟩ := hi.cand d hd
          refine ⟨g1, by simp [g2], g3, fun q hq hqe => ?_⟩
          rcases List.mem_append.1 hq with hq | hq
          · exact g4 q hq hqe
          · rw [List.mem_singleton.1 hq] at hqe ⊢
            have hd' := mget_of_mem hi.nodup (k := d.1) (v := d.2) hd
            simp only at hd'
            rw [← hqe, hg] at hd'
            injection hd' with hd'
            rw [← hd']
            have := fun h => hc (hpos.2 h)
            omega
        · rcases List.mem_append.1 hq with hq | hq
          · exact hi.cover q hq hle
          · rw [List.mem_singleton.1 hq]
            exact ⟨_, mget_mem hg, rfl⟩

theorem filterFold_inv {maxSdk : Int} (l : List (Nat × Bytes)) : ∀ {done : List (Nat × Bytes)} {st : Candidates × Int},
    FilterInv maxSdk done st → (∀ q ∈ done ++ l, 0 < algStrength q.1) →
    ∃ st', l.foldlM (filterStep maxSdk) st = .ok st' ∧ FilterInv maxSdk (done ++ l) st' := by
  induction l with
  | nil => intro done st hi _; exact ⟨st, rfl, by simpa using hi⟩
  | cons p l ih =>
    intro done st hi hs
    obtain ⟨st', h1, h2⟩ := filterStep_inv hi (fun q hq => hs q (by simp [hq])) (hs p (by simp))
    obtain ⟨st'', h3, h4⟩ := ih h2 (by simpa using hs)
    refine ⟨st'', ?_, by simpa using h4⟩
    rw [List.foldlM_cons, h1]; exact h3

/-- What is chosen among the signatures `sigs`. -/
def Chosen (maxSdk : Int) (sigs chosen : List (Nat × Bytes)) : Prop :=
  (∀ p ∈ chosen, p ∈ sigs ∧ platformOf p.1 ≤ maxSdk ∧
    ∀ q ∈ sigs, platformOf q.1 = platformOf p.1 → algStrength q.1 ≤ algStrength p.1) ∧
  ∀ q ∈ sigs, platformOf q.1 ≤ maxSdk → ∃ p ∈ chosen, platformOf p.1 = platformOf q.1

theorem filterSignatures_spec {minSdk maxSdk : Int} {sigs : List (Nat × Bytes)} (hs : ∀ q ∈ sigs, 0 < algStrength q.1) :
    ((∃ q ∈ sigs, platformOf q.1 ≤ maxSdk ∧ platformOf q.1 ≤ minSdk) →
      ∃ ch, filterSignatures minSdk maxSdk sigs = .ok (.ok ch) ∧ Chosen maxSdk sigs ch) ∧
    ((¬ ∃ q ∈ sigs, platformOf q.1 ≤ maxSdk ∧ platformOf q.1 ≤ minSdk) →
      ∃ e, filterSignatures minSdk maxSdk sigs = .ok (.error e)) := by
  obtain ⟨⟨cands, mv⟩, h1, hi⟩ := filterFold_inv (maxSdk := maxSdk) sigs (done := []) (st := ([], maxInt32))
    ⟨(fun c hc => by cases hc), (by simp [KeysNodup]), (fun q hq => by cases hq), (fun q hq => by cases hq), .inl rfl⟩ (by simpa using hs)
  simp only [List.nil_append] at hi
  unfold filterSignatures
  rw [h1]
  simp only [bind, Except.bind]
  constructor
  · rintro ⟨q, hq, hq1, hq2⟩
    have hlow := hi.low q hq hq1
    obtain ⟨c, hc, _⟩ := hi.cover q hq hq1
    have hne : cands.length ≠ 0 := by
      have := List.length_pos_of_mem hc
      simp only at this; omega
    rw [if_neg (by simp only at hlow; omega)]
    refine ⟨_, rfl, ⟨fun p hp => ?_, fun q hq hle => ?_⟩⟩
    · obtain ⟨c, hc, rfl⟩ := List.mem_map.1 hp
      obtain ⟨g1, g2, g3, g4⟩ := hi.cand c hc
      exact ⟨g2, by omega, fun q hq hqe => g4 q hq (by omega)⟩
    · obtain ⟨c, hc, hce⟩ := hi.cover q hq hle
      exact ⟨c.2, List.mem_map.2 ⟨c, hc, rfl⟩, by rw [← hce]; exact (hi.cand c hc).1.symm⟩
  · intro hno
    by_cases hc : minSdk < mv ∨ cands.length = 0
    · rw [if_pos hc]; exact ⟨_, rfl⟩
    · exfalso
      have hc' : ¬ minSdk < mv ∧ cands.length ≠ 0 := by omega
      obtain ⟨c, hcm⟩ := List.exists_mem_of_length_pos (by omega : 0 < cands.length)
      obtain ⟨g1, g2, g3, _⟩ := hi.cand c hcm
      rcases hi.att with h | ⟨q, hq, hq1, hq2⟩
      · have a1 := hi.low _ g2 (by omega)
        have a2 := platform_small (hs _ g2)
        simp only [maxInt32] at h a1
        omega
      · exact hno ⟨q, hq, hq1, by simp only at hq2; omega⟩

/-! ## Verification of a signature list -/

theorem stampVerifyAll_iff (env : Env) (c : Cert) (data : Bytes) (l : List (Nat × Bytes)) :
    stampVerifyAll env c data l = .ok none ↔ ∀ p ∈ l, SigValid env c.key p.1 data p.2 := by
  induction l with
  | nil => simp [stampVerifyAll]
  | cons p l ih =>
    obtain ⟨a, s⟩ := p
    unfold stampVerifyAll
    cases hv : verifySignature env c.key a data s with
    | error q =>
      simp only [bind, Except.bind]
      constructor
      · intro h; cases h
      · intro h
        have := (verifySignature_iff env c.key a data s).2 (h (a, s) (by simp))
        rw [hv] at this; cases this
    | ok o =>
      simp only [bind, Except.bind]
      cases o with
      | some e =>
        constructor
        · intro h; cases h
        · intro h
          have := (verifySignature_iff env c.key a data s).2 (h (a, s) (by simp))
          rw [hv] at this; cases this
      | none =>
        simp only
        rw [ih]
        have := (verifySignature_iff env c.key a data s).1 hv
        constructor
        · intro h p hp
          rcases List.mem_cons.1 hp with rfl | hp
          · exact this
          · exact h p hp
        · intro h p hp; exact h p (by simp [hp])

theorem StampSigned.of_chosen {env : Env} {key : PubKey} {minSdk maxSdk : Int} {msg sigs : Bytes} {recs : List Bytes}
    {ch : List (Nat × Bytes)} (hl : LPList sigs recs) (hw : StampSigsWF recs)
    (hch : Chosen maxSdk (sigMap [] recs) ch) (hv : ∀ p ∈ ch, SigValid env key p.1 msg p.2)
    (hmin : ∃ q ∈ sigMap [] recs, platformOf q.1 ≤ maxSdk ∧ platformOf q.1 ≤ minSdk) :
    StampSigned env key minSdk maxSdk msg sigs := by
  refine ⟨recs, ch, hl, hw, fun p hp => ?_, fun a s has hle => ?_, ?_⟩
  · obtain ⟨h1, h2, _⟩ := hch.1 p hp
    exact ⟨(sigMap_mem hw).1 h1, h2, hv p hp⟩
  · have hm := (sigMap_mem hw (p := (a, s))).2 has
    obtain ⟨p, hp, hpe⟩ := hch.2 _ hm hle
    exact ⟨p, hp, hpe, (hch.1 p hp).2.2 _ hm hpe.symm⟩
  · obtain ⟨q, hq, h1, h2⟩ := hmin
    obtain ⟨p, hp, hpe⟩ := hch.2 q hq h1
    exact ⟨p, hp, by omega⟩

theorem Chosen.perm {maxSdk : Int} {sigs sigs' ch : List (Nat × Bytes)} (h : Chosen maxSdk sigs ch) (hp : sigs.Perm sigs') :
    Chosen maxSdk sigs' ch := by
  refine ⟨fun p hm => ?_, fun q hq => h.2 q (hp.mem_iff.2 hq)⟩
  obtain ⟨h1, h2, h3⟩ := h.1 p hm
  exact ⟨hp.mem_iff.1 h1, h2, fun q hq => h3 q (hp.mem_iff.2 hq)⟩

/-- A check that returns without panic either accepts (and then everything chosen is valid) or adds an error. -/
theorem stampVerify_sound {env : Env} {minSdk maxSdk : Int} {data : Bytes} {c : Cert} {sigs : Bytes} {r r' : StampRes}
    {ok : Bool} (h : stampVerifySignature env minSdk maxSdk data c sigs r = .ok (r', ok)) :
    (ok = true ∧ r.Warned r' ∧ StampSigned env c.key minSdk maxSdk data sigs) ∨ (ok = false ∧ r.Failed r') := by
  unfold stampVerifySignature at h
  cases hsp : lpSplit sigs with
  | mk items err =>
    rw [hsp] at h
    simp only at h
    by_cases hw : StampSigsWF items
    · obtain ⟨r1, h1, hwn⟩ := stampFold_ok items r [] hw
      rw [h1] at h
      simp only [bind, Except.bind, Bool.not_true, Bool.false_eq_true, if_false] at h
      cases err with
      | some e =>
        simp only at h
        injection h with h
        obtain ⟨rfl, rfl⟩ := Prod.mk.inj h
        exact .inr ⟨rfl, .of_warned hwn (.addError _ _)⟩
      | none =>
        simp only at h
        split at h
        · injection h with h
          obtain ⟨rfl, rfl⟩ := Prod.mk.inj h
          exact .inr ⟨rfl, .of_warned hwn (.addError _ _)⟩
        · have hl : LPList sigs items := by
            have := (lpSplit_ok_iff sigs items).1 hsp
            exact ⟨this.2, this.1⟩
          have hperm := env.mapOrder_perm (sigMap [] items)
          have hsup : ∀ q ∈ env.mapOrder (sigMap [] items), 0 < algStrength q.1 := by
            intro q hq
            exact ((sigMap_mem hw).1 (hperm.mem_iff.1 hq)).1
          have hf := filterSignatures_spec (minSdk := minSdk) (maxSdk := maxSdk) hsup
          by_cases hex : ∃ q ∈ env.mapOrder (sigMap [] items), platformOf q.1 ≤ maxSdk ∧ platformOf q.1 ≤ minSdk
          · obtain ⟨ch, hfc, hch⟩ := hf.1 hex
            rw [hfc] at h
            simp only at h
            cases hva : stampVerifyAll env c data (env.mapOrder ch) with
            | error q => rw [hva] at h; cases h
            | ok o =>
              rw [hva] at h
              simp only at h
              cases o with
              | some e =>
                simp only at h
                injection h with h
                obtain ⟨rfl, rfl⟩ := Prod.mk.inj h
                exact .inr ⟨rfl, .of_warned hwn (.addError _ _)⟩
              | none =>
                simp only at h
                injection h with h
                obtain ⟨rfl, rfl⟩ := Prod.mk.inj h
                refine .inl ⟨rfl, hwn, .of_chosen hl hw (hch.perm hperm) (fun p hp => ?_) ?_⟩
                · exact (stampVerifyAll_iff env c data _).1 hva p ((env.mapOrder_perm ch).mem_iff.2 hp)
                · obtain ⟨q, hq, hq'⟩ := hex
                  exact ⟨q, hperm.mem_iff.1 hq, hq'⟩
          · obtain ⟨e, hfe⟩ := hf.2 hex
            rw [hfe] at h
            simp only at h
            injection h with h
            obtain ⟨rfl, rfl⟩ := Prod.mk.inj h
            exact .inr ⟨rfl, .of_warned hwn ⟨[e, .noneToVerify], by simp, by simp [StampRes.addError]⟩⟩
    · obtain ⟨r1, m1, h1, hfl⟩ := stampFold_fail items r [] hw
      rw [h1] at h
      simp only [bind, Except.bind, Bool.not_false, if_true] at h
      injection h with h
      obtain ⟨rfl, rfl⟩ := Prod.mk.inj h
      exact .inr ⟨rfl, hfl⟩

/-- If every strongest signature is valid the list is accepted, whatever the map order. -/
theorem stampVerify_complete {env : Env} {minSdk maxSdk : Int} {data : Bytes} {c : Cert} {sigs : Bytes}
    (h : StampSignedAll env c.key minSdk maxSdk data sigs) (r : StampRes) :
    ∃ r', stampVerifySignature env minSdk maxSdk data c sigs r = .ok (r', true) ∧ r.Warned r' := by
  obtain ⟨recs, hl, hw, hv, a0, s0, hs0, hm0, hn0⟩ := h
  have hsp := (lpSplit_ok_iff sigs recs).2 ⟨hl.2, hl.1⟩
  obtain ⟨r1, h1, hwn⟩ := stampFold_ok recs r [] hw
  have hperm := env.mapOrder_perm (sigMap [] recs)
  have hsup : ∀ q ∈ env.mapOrder (sigMap [] recs), 0 < algStrength q.1 :=
    fun q hq => ((sigMap_mem hw).1 (hperm.mem_iff.1 hq)).1
  have hmem0 := (sigMap_mem hw (p := (a0, s0))).2 hs0
  obtain ⟨ch, hfc, hch⟩ := (filterSignatures_spec (minSdk := minSdk) (maxSdk := maxSdk) hsup).1
    ⟨(a0, s0), hperm.mem_iff.2 hmem0, hm0, hn0⟩
  have hch' := hch.perm hperm
  have hva : stampVerifyAll env c data (env.mapOrder ch) = .ok none := by
    refine (stampVerifyAll_iff env c data _).2 (fun p hp => ?_)
    obtain ⟨g1, g2, g3⟩ := hch'.1 p ((env.mapOrder_perm ch).mem_iff.1 hp)
    refine hv p.1 p.2 ((sigMap_mem hw).1 g1) g2 (fun a' s' hs' hpe => ?_)
    exact g3 (a', s') ((sigMap_mem hw).2 hs') hpe
  refine ⟨r1, ?_, hwn⟩
  unfold stampVerifySignature
  rw [hsp]
  simp only
  rw [h1]
  simp only [bind, Except.bind, Bool.not_true, Bool.false_eq_true, if_false]
  rw [if_neg]
  · rw [hfc]
    simp only
    rw [hva]
  · intro h0
    have := List.length_pos_of_mem hmem0
    omega

end Apk
