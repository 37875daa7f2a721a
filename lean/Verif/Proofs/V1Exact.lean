import Verif.Spec.V1Exact
import Verif.Proofs.V1Panic
/-! # Exact characterisation of v1 verification: one signature -/
namespace Apk

theorem signedDataOf_other (env : Env1) (p7 : P7) (sf : Bytes) (maxSdk : Int) (info : P7Signer) :
    signedDataOf env p7 sf maxSdk info = .ok none ↔ SignsOther env p7 sf maxSdk info := by
  unfold signedDataOf
  constructor
  · intro h
    split at h
    · cases h
    rename_i hne
    split at h
    · cases h
    · rename_i hb
      unfold contentTypeOk at hb
      split at hb
      · rename_i hm
        split at hb
        · cases hb
        · rename_i t ht
          simp only [Except.ok.injEq, decide_eq_false_iff_not] at hb
          exact .contentType hne hm ((signedAttr_none ..).1 ht) hb
      · cases hb
    · rename_i hb
      have hct : 24 ≤ maxSdk → OnlyAttr env.unmOid [1,2,840,113549,1,9,3] info.attrs p7.contentType := by
        intro hm
        unfold contentTypeOk at hb
        rw [if_pos hm] at hb
        split at hb
        · cases hb
        · rename_i t ht
          simp only [Except.ok.injEq, decide_eq_true_eq] at hb
          rw [← hb]
          exact (signedAttr_none ..).1 ht
      split at h
      · cases h
      rename_i digest hdig
      split at h
      · cases h
      rename_i hf hhash
      split at h
      · rename_i hd
        exact .digest hne hct ((hashForOid_iff ..).1 hhash) ((signedAttr_none ..).1 hdig) hd
      · split at h <;> cases h
  · intro h
    cases h with
    | contentType hne hm ho ht =>
      rw [if_neg hne]
      have : contentTypeOk env p7 maxSdk info = .ok false := by
        unfold contentTypeOk
        rw [if_pos hm, (signedAttr_none ..).2 ho]
        simp [ht]
      rw [this]
    | digest hne hct hah ho hd =>
      rw [if_neg hne]
      have e1 : contentTypeOk env p7 maxSdk info = .ok true := by
        unfold contentTypeOk
        split
        · rename_i hm
          rw [(signedAttr_none ..).2 (hct hm)]
          simp
        · rfl
      rw [e1]
      simp only
      rw [(signedAttr_none ..).2 ho]
      simp only
      rw [(hashForOid_iff ..).2 hah]
      simp only
      rw [if_pos hd]

theorem certFor_iff {env : Env1} {p7 : P7} {issuer : PName} {serial : Int} {c : Cert} : certFor env p7 issuer serial = some c ↔
    ∃ pre post, p7.certs = pre ++ c :: post ∧ (serial = c.serial ∧ SameName env issuer c.issuer) ∧
      ∀ x ∈ pre, ¬ (serial = x.serial ∧ SameName env issuer x.issuer) := by
  unfold certFor
  rw [List.find?_eq_some_iff_append]
  simp only [Bool.and_eq_true, decide_eq_true_eq, Bool.not_eq_true', SameName, Bool.and_eq_false_iff, decide_eq_false_iff_not]
  constructor
  · rintro ⟨h, pre, post, h1, h2⟩
    exact ⟨pre, post, h1, h, fun x hx => by have := h2 x hx; rintro ⟨h3, h4⟩; rcases this with h | h <;> contradiction⟩
  · rintro ⟨pre, post, h1, h, h2⟩
    refine ⟨h, pre, post, h1, fun x hx => ?_⟩
    by_cases h3 : serial = x.serial
    · exact .inr (fun h4 => h2 x hx ⟨h3, h4⟩)
    · exact .inl h3

theorem SignerCert.unique {env : Env1} {p7 : P7} {info : P7Signer} {c d : Cert} (h1 : SignerCert env p7 info c) (h2 : SignerCert env p7 info d) : c = d := by
  obtain ⟨r, hr, hc, _⟩ := h1
  obtain ⟨r', hr', hd, _⟩ := h2
  rw [hr] at hr'
  cases hr'
  have := (certFor_iff.2 hc).symm.trans (certFor_iff.2 hd)
  exact Option.some.inj this

/-- When the check of a signature panics. -/
theorem checkSignature1_total {env : Env1} {cert : Cert} {algo : SigAlg} {d sig : Bytes}
    (h : algo ∈ [SigAlg.dsaSha1, .dsaSha224, .dsaSha256] → cert.key.kind = .dsa) : ∃ b, checkSignature1 env cert algo d sig = .ok b := by
  have hd : ∀ x s, cert.key.kind = .dsa → ∃ b, checkDsa env cert x s = .ok b := by
    intro x s hk
    unfold checkDsa
    rw [if_neg (by simp [hk])]
    split
    · exact ⟨_, rfl⟩
    · exact ⟨_, rfl⟩
  cases algo with
  | dsaSha1 => exact hd _ _ (h (by simp))
  | dsaSha224 => exact hd _ _ (h (by simp))
  | dsaSha256 => exact hd _ _ (h (by simp))
  | _ => exact ⟨_, rfl⟩

theorem checkSignature1_false {env : Env1} {cert : Cert} {algo : SigAlg} {d sig : Bytes} : checkSignature1 env cert algo d sig = .ok false ↔
    ¬ JarSigValid env cert d sig algo ∧ (algo ∈ [SigAlg.dsaSha1, .dsaSha224, .dsaSha256] → cert.key.kind = .dsa) := by
  constructor
  · intro h
    refine ⟨(fun hv => by rw [(checkSignature1_ok ..).2 hv] at h; cases h), fun hm => ?_⟩
    have hd : ∀ x s, checkDsa env cert x s = .ok false → cert.key.kind = .dsa := by
      intro x s hx
      unfold checkDsa at hx
      split at hx
      · cases hx
      · rename_i hk
        exact Classical.not_not.1 hk
    simp only [List.mem_cons, List.not_mem_nil, or_false] at hm
    rcases hm with rfl | rfl | rfl <;> exact hd _ _ h
  · rintro ⟨h1, h2⟩
    obtain ⟨b, hb⟩ := checkSignature1_total (env := env) (d := d) (sig := sig) h2
    cases b with
    | false => exact hb
    | true => exact absurd ((checkSignature1_ok ..).1 hb) h1

theorem signer_good_step {env : Env1} {p7 : P7} {sf : Bytes} {maxSdk : Int} {info : P7Signer} {infos : List P7Signer} {first : Option Cert} {c : Cert}
    (hc : SignerCert env p7 info c) (hg : SignerGood env p7 sf maxSdk info c) :
    signerLoop env p7 sf maxSdk (info :: infos) first = signerLoop env p7 sf maxSdk infos (some (first.getD c)) := by
  obtain ⟨rdns, hr, hf, hcrit⟩ := hc
  obtain ⟨algo, d, ha, hs, hv⟩ := hg
  rw [signerLoop, hr]
  simp only
  rw [certFor_iff.2 hf]
  simp only
  rw [if_neg (by simp [hcrit]), oidToAlgo_iff.2 ha]
  simp only
  rw [(signedDataOf_some ..).2 hs]
  simp only
  rw [(checkSignature1_ok ..).2 hv]

theorem signer_pass_step {env : Env1} {p7 : P7} {sf : Bytes} {maxSdk : Int} {info : P7Signer} {infos : List P7Signer} {first : Option Cert} {c : Cert}
    (hc : SignerCert env p7 info c) (hg : PassedOver env p7 sf maxSdk info c) :
    signerLoop env p7 sf maxSdk (info :: infos) first = signerLoop env p7 sf maxSdk infos first := by
  obtain ⟨rdns, hr, hf, hcrit⟩ := hc
  obtain ⟨algo, ha, hs⟩ := hg
  rw [signerLoop, hr]
  simp only
  rw [certFor_iff.2 hf]
  simp only
  rw [if_neg (by simp [hcrit]), oidToAlgo_iff.2 ha]
  simp only
  rcases hs with hs | ⟨d, hs, hv, hk⟩
  · rw [(signedDataOf_other ..).2 hs]
  · rw [(signedDataOf_some ..).2 hs]
    simp only
    rw [checkSignature1_false.2 ⟨hv, hk⟩]

theorem signer_inv {env : Env1} {p7 : P7} {sf : Bytes} {maxSdk : Int} {info : P7Signer} {infos : List P7Signer} {first r : Option Cert}
    (h : signerLoop env p7 sf maxSdk (info :: infos) first = .ok (.ok r)) :
    ∃ c, SignerCert env p7 info c ∧ (SignerGood env p7 sf maxSdk info c ∨ PassedOver env p7 sf maxSdk info c) := by
  unfold signerLoop at h
  split at h
  · cases h
  rename_i rdns hr
  split at h
  · cases h
  rename_i cert hc
  split at h
  · cases h
  rename_i hcrit
  refine ⟨cert, ⟨rdns, hr, certFor_iff.1 hc, by simpa using hcrit⟩, ?_⟩
  split at h
  · cases h
  rename_i algo ha
  split at h
  · cases h
  · rename_i hd
    exact .inr ⟨algo, oidToAlgo_iff.1 ha, .inl ((signedDataOf_other ..).1 hd)⟩
  · rename_i d hd
    split at h
    · cases h
    · rename_i hs
      obtain ⟨h1, h2⟩ := checkSignature1_false.1 hs
      exact .inr ⟨algo, oidToAlgo_iff.1 ha, .inr ⟨d, (signedDataOf_some ..).1 hd, h1, h2⟩⟩
    · rename_i hs
      exact .inl ⟨algo, d, oidToAlgo_iff.1 ha, (signedDataOf_some ..).1 hd, (checkSignature1_ok ..).1 hs⟩

/-- A signer info is not good and passed over at the same time. -/
theorem good_not_passed {env : Env1} {p7 : P7} {sf : Bytes} {maxSdk : Int} {info : P7Signer} {c : Cert}
    (hg : SignerGood env p7 sf maxSdk info c) : ¬ PassedOver env p7 sf maxSdk info c := by
  rintro ⟨algo, ha, h⟩
  obtain ⟨algo', d, ha', hs, hv⟩ := hg
  have e : some algo = some algo' := (oidToAlgo_iff.2 ha).symm.trans (oidToAlgo_iff.2 ha')
  cases e
  have hs' := (signedDataOf_some ..).2 hs
  rcases h with h | ⟨d', h, hn, _⟩
  · rw [(signedDataOf_other ..).2 h] at hs'
    cases hs'
  · rw [(signedDataOf_some ..).2 h] at hs'
    cases hs'
    exact hn hv

theorem signerLoop_some {env : Env1} {p7 : P7} {sf : Bytes} {maxSdk : Int} {infos : List P7Signer} {c : Cert} {r : Option Cert} :
    signerLoop env p7 sf maxSdk infos (some c) = .ok (.ok r) ↔
      r = some c ∧ ∀ i ∈ infos, ∃ c, SignerCert env p7 i c ∧ (SignerGood env p7 sf maxSdk i c ∨ PassedOver env p7 sf maxSdk i c) := by
  induction infos with
  | nil =>
    simp only [signerLoop, Except.ok.injEq, List.not_mem_nil, false_implies, implies_true, and_true]
    exact eq_comm
  | cons i is ih =>
    rw [List.forall_mem_cons]
    constructor
    · intro h
      obtain ⟨d, h1, h2⟩ := signer_inv h
      refine (fun (x : r = some c ∧ _) => ⟨x.1, ⟨d, h1, h2⟩, x.2⟩) (ih.1 ?_)
      rcases h2 with h2 | h2
      · rwa [signer_good_step h1 h2] at h
      · rwa [signer_pass_step h1 h2] at h
    · rintro ⟨h1, ⟨d, h2, h3⟩, h4⟩
      have := ih.2 ⟨h1, h4⟩
      rcases h3 with h3 | h3
      · rwa [signer_good_step h2 h3]
      · rwa [signer_pass_step h2 h3]

theorem signerLoop_none {env : Env1} {p7 : P7} {sf : Bytes} {maxSdk : Int} {infos : List P7Signer} {leaf : Cert} :
    signerLoop env p7 sf maxSdk infos none = .ok (.ok (some leaf)) ↔
      ∃ pre info post, infos = pre ++ info :: post ∧
        (∀ i ∈ pre, ∃ c, SignerCert env p7 i c ∧ PassedOver env p7 sf maxSdk i c) ∧
        SignerCert env p7 info leaf ∧ SignerGood env p7 sf maxSdk info leaf ∧
        ∀ i ∈ post, ∃ c, SignerCert env p7 i c ∧ (SignerGood env p7 sf maxSdk i c ∨ PassedOver env p7 sf maxSdk i c) := by
  induction infos with
  | nil => simp [signerLoop]
  | cons i is ih =>
    constructor
    · intro h
      obtain ⟨d, h1, h2⟩ := signer_inv h
      rcases h2 with h2 | h2
      · rw [signer_good_step h1 h2, signerLoop_some] at h
        obtain ⟨h3, h4⟩ := h
        cases h3
        exact ⟨[], i, is, rfl, by simp, h1, h2, h4⟩
      · rw [signer_pass_step h1 h2, ih] at h
        obtain ⟨pre, info, post, rfl, h3, h4⟩ := h
        exact ⟨i :: pre, info, post, rfl, List.forall_mem_cons.2 ⟨⟨d, h1, h2⟩, h3⟩, h4⟩
    · rintro ⟨pre, info, post, he, h1, h2, h3, h4⟩
      cases pre with
      | nil =>
        cases he
        rw [signer_good_step h2 h3, signerLoop_some]
        exact ⟨rfl, h4⟩
      | cons j js =>
        cases he
        obtain ⟨⟨d, h5, h6⟩, h7⟩ := List.forall_mem_cons.1 h1
        rw [signer_pass_step h5 h6, ih]
        exact ⟨js, info, post, rfl, h7, h2, h3, h4⟩

/-- The signature check accepts exactly the blocks that sign the file, and reports the chain of the first good signer. -/
theorem verifySignature1_iff {env : Env1} {p7 : P7} {sf : Bytes} {minSdk maxSdk : Int} {c : Option (List Cert)} :
    verifySignature1 env p7 sf minSdk maxSdk = .ok (c, none) ↔ ∃ leaf, BlockSigns env p7 sf minSdk maxSdk leaf ∧ c = some (buildChain env p7.certs leaf) := by
  unfold verifySignature1
  by_cases h0 : p7.signers = []
  · rw [if_pos h0]
    constructor
    · intro h; cases h
    · rintro ⟨leaf, ⟨pre, info, post, h, _⟩, _⟩
      have : considered p7 minSdk = [] := by unfold considered; rw [h0]; split <;> rfl
      rw [this] at h
      cases pre <;> cases h
  · rw [if_neg h0]
    constructor
    · intro h
      split at h
      · cases h
      · cases h
      · cases h
      · rename_i leaf hl
        cases h
        exact ⟨leaf, signerLoop_none.1 hl, rfl⟩
    · rintro ⟨leaf, hb, rfl⟩
      rw [show signerLoop env p7 sf maxSdk (if minSdk < 24 then p7.signers.take 1 else p7.signers) none = _ from signerLoop_none.2 hb]

theorem BlockSigns.unique {env : Env1} {p7 : P7} {sf : Bytes} {minSdk maxSdk : Int} {a b : Cert} (h1 : BlockSigns env p7 sf minSdk maxSdk a)
    (h2 : BlockSigns env p7 sf minSdk maxSdk b) : a = b := by
  have e := (signerLoop_none.2 h1).symm.trans (signerLoop_none.2 h2)
  cases e
  rfl

/-! ## The chain -/

theorem firstIssuer_iff {env : Env1} {certs : List Cert} {c d : Cert} :
    certs.find? (fun x => decide (canonical env.toLower c.issuer = canonical env.toLower x.subject)) = some d ↔ FirstIssuer env certs c d := by
  rw [List.find?_eq_some_iff_append]
  simp only [decide_eq_true_eq, Bool.not_eq_true', decide_eq_false_iff_not, FirstIssuer, SameName]
  constructor
  · rintro ⟨h, pre, post, h1, h2⟩; exact ⟨pre, post, h1, h, h2⟩
  · rintro ⟨pre, post, h1, h, h2⟩; exact ⟨h, pre, post, h1, h2⟩

theorem IssuerPath.snoc {env : Env1} {certs l : List Cert} {c d : Cert} (h : IssuerPath env certs (l ++ [c])) (hn : ¬ SameName env c.issuer c.subject)
    (hs : FirstIssuer env certs c d) : IssuerPath env certs (l ++ [c] ++ [d]) := by
  induction l with
  | nil => exact .cons hn hs (.single d)
  | cons x xs ih =>
    cases xs with
    | nil =>
      cases h with
      | cons h1 h2 h3 => exact .cons h1 h2 (.cons hn hs (.single d))
    | cons y ys =>
      cases h with
      | cons h1 h2 h3 => exact .cons h1 h2 (ih h3)

theorem chainLoop_path {env : Env1} {certs : List Cert} {fuel : Nat} {pre : List Cert} {last : Cert}
    (hf : certs.length ≤ pre.length + fuel) (hlink : IssuerPath env certs (pre ++ [last])) (hself : ¬ SameName env last.issuer last.subject)
    (hlen : (pre ++ [last]).length ≤ certs.length) :
    IssuerPath env certs (chainLoop env certs (fuel + 1) (canonical env.toLower last.issuer) (pre ++ [last])) := by
  induction fuel generalizing pre last with
  | zero =>
    rw [List.length_append, List.length_singleton] at hlen
    omega
  | succ n ih =>
    rw [chainLoop]
    split
    · exact hlink
    · rename_i d hd
      have hd' := firstIssuer_iff.1 hd
      have hp := hlink.snoc hself hd'
      split
      · exact hp
      · rename_i hl
        split
        · exact hp
        · rename_i hs
          refine ih (pre := pre ++ [last]) (last := d) ?_ hp hs (by omega)
          rw [List.length_append, List.length_singleton]
          omega

theorem buildChain_is {env : Env1} {certs : List Cert} {leaf : Cert} (hm : leaf ∈ certs) : ChainIs env certs leaf (buildChain env certs leaf) := by
  obtain ⟨more, h1, h2, h3, h4, h5⟩ := buildChain_spec (env := env) hm
  refine ⟨by rw [h1]; rfl, ?_, by rw [h1]; exact h5, by rw [h1]; exact h4⟩
  unfold buildChain
  split
  · exact .single _
  · rename_i hs
    have : 0 < certs.length := List.length_pos_of_mem hm
    exact chainLoop_path (pre := []) (by simp) (.single _) hs (by simp; omega)

theorem IssuerPath.tail {env : Env1} {certs l : List Cert} {c d : Cert} (h : IssuerPath env certs (c :: d :: l)) : IssuerPath env certs (d :: l) := by
  cases h with
  | cons _ _ h => exact h

/-- Two paths from the same certificate: one is a prefix of the other. -/
theorem IssuerPath.prefix {env : Env1} {certs : List Cert} : ∀ {a b : List Cert}, a.head? = b.head? → IssuerPath env certs a → IssuerPath env certs b → a <+: b ∨ b <+: a := by
  intro a
  induction a with
  | nil => intro b h; exact fun _ _ => .inl (List.nil_prefix)
  | cons x xs ih =>
    intro b h ha hb
    cases b with
    | nil => exact .inr List.nil_prefix
    | cons y ys =>
      simp only [List.head?_cons, Option.some.injEq] at h
      subst h
      cases xs with
      | nil => exact .inl (by simp)
      | cons x' xs' =>
        cases ys with
        | nil => exact .inr (by simp)
        | cons y' ys' =>
          cases ha with
          | cons a1 a2 a3 =>
            cases hb with
            | cons b1 b2 b3 =>
              have e := (firstIssuer_iff.2 a2).symm.trans (firstIssuer_iff.2 b2)
              cases e
              rcases ih (b := x' :: ys') rfl a3 b3 with h | h
              · exact .inl ((List.cons_prefix_cons).2 ⟨rfl, h⟩)
              · exact .inr ((List.cons_prefix_cons).2 ⟨rfl, h⟩)

theorem IssuerPath.mid {env : Env1} {certs : List Cert} {pre post : List Cert} {c d : Cert} (h : IssuerPath env certs (pre ++ c :: d :: post)) :
    ¬ SameName env c.issuer c.subject ∧ FirstIssuer env certs c d := by
  induction pre with
  | nil => cases h with | cons h1 h2 _ => exact ⟨h1, h2⟩
  | cons x xs ih =>
    cases xs with
    | nil => cases h with | cons _ _ h => exact ih h
    | cons y ys => cases h with | cons _ _ h => exact ih h

theorem ChainIs.unique {env : Env1} {certs a b : List Cert} {leaf : Cert} (h1 : ChainIs env certs leaf a) (h2 : ChainIs env certs leaf b) : a = b := by
  have key : ∀ {a b : List Cert}, ChainIs env certs leaf a → ChainIs env certs leaf b → a <+: b → a = b := by
    rintro a b ⟨_, _, ⟨pre, last, rfl, he⟩, _⟩ ⟨_, hp, _, hl⟩ ⟨t, rfl⟩
    cases t with
    | nil => simp
    | cons d t =>
      rw [List.append_assoc, List.singleton_append] at hp
      obtain ⟨m1, pre', post', hc, m2, m3⟩ := hp.mid
      rcases he with he | he | he
      · exact absurd he m1
      · exact absurd m2 (he d (by rw [hc]; simp))
      · simp only [List.length_append, List.length_cons, List.length_nil] at he hl
        omega
  rcases IssuerPath.prefix (h1.1.trans h2.1.symm) h1.2.1 h2.2.1 with h | h
  · exact key h1 h2 h
  · exact (key h2 h1 h).symm

theorem BlockSigns.mem {env : Env1} {p7 : P7} {sf : Bytes} {minSdk maxSdk : Int} {leaf : Cert} (h : BlockSigns env p7 sf minSdk maxSdk leaf) : leaf ∈ p7.certs := by
  obtain ⟨_, _, _, _, _, ⟨_, _, ⟨pre, post, hc, _⟩, _⟩, _⟩ := h
  rw [hc]; simp

theorem sigChain_iff {env : Env1} {minSdk maxSdk : Int} {r : Ready} {leaf : Cert} (h : BlockSigns env r.p7 r.sm.rawData minSdk maxSdk leaf) {raws : List Bytes} :
    SigChain env minSdk maxSdk r raws ↔ raws = (buildChain env r.p7.certs leaf).map Cert.raw := by
  constructor
  · rintro ⟨leaf', ch, h1, h2, rfl⟩
    cases h.unique h1
    rw [h2.unique (buildChain_is h.mem)]
  · rintro rfl
    exact ⟨leaf, _, h, buildChain_is h.mem, rfl⟩

end Apk
