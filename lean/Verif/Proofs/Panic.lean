import Verif.Spec.Panic
import Verif.Proofs.IntegrityEq
import Verif.Proofs.Verdict
/-! # Where panics come from -/
namespace Apk
set_option linter.unusedSimpArgs false

theorem vs_rsa {env : Env} {key : PubKey} {algo : Nat} {data sig : Bytes} (h : algo ∈ rsaAlgs) :
    ∃ o, verifySignature env key algo data sig = if key.kind ≠ .rsa then .error .typeAssertion else .ok o := by
  simp only [rsaAlgs, List.mem_cons, List.not_mem_nil, or_false] at h
  rcases h with rfl | rfl | rfl | rfl | rfl <;> exact ⟨_, rfl⟩

theorem vs_ec {env : Env} {key : PubKey} {algo : Nat} {data sig : Bytes} (h : algo ∈ ecAlgs) :
    ∃ hashed, verifySignature env key algo data sig = match env.asn1Ints sig with
      | none => .ok (some .asn1Sig)
      | some params =>
        if key.kind ≠ .ecdsa then .error .typeAssertion
        else match params with
          | p0 :: p1 :: _ => .ok (if env.ecdsaVerify key hashed p0 p1 then none else some .ecdsaVerify)
          | _ => .error .indexOutOfRange := by
  simp only [ecAlgs, List.mem_cons, List.not_mem_nil, or_false] at h
  rcases h with rfl | rfl | rfl
  · exact ⟨env.sha256 data, rfl⟩
  · exact ⟨env.sha512 data, rfl⟩
  · exact ⟨env.sha256 data, rfl⟩

theorem vs_dsa {env : Env} {key : PubKey} {algo : Nat} {data sig : Bytes} (h : algo ∈ dsaAlgs) :
    verifySignature env key algo data sig = match env.asn1Ints sig with
      | none => .ok (some .asn1Sig)
      | some params =>
        if key.kind ≠ .dsa then .error .typeAssertion
        else if key.qBits / 8 > (env.sha256 data).length then .error .sliceOutOfRange
        else match params with
          | p0 :: p1 :: _ =>
            .ok (if env.dsaVerify key ((env.sha256 data).take (key.qBits / 8)) p0 p1 then none else some .dsaVerify)
          | _ => .error .indexOutOfRange := by
  simp only [dsaAlgs, List.mem_cons, List.not_mem_nil, or_false] at h
  rcases h with rfl | rfl <;> rfl

theorem vs_other {env : Env} {key : PubKey} {algo : Nat} {data sig : Bytes} (h1 : algo ∉ rsaAlgs) (h2 : algo ∉ ecAlgs)
    (h3 : algo ∉ dsaAlgs) : verifySignature env key algo data sig = .ok (some .unhandledSigType) := by
  unfold verifySignature
  simp only [rsaAlgs, ecAlgs, dsaAlgs, List.mem_cons, List.not_mem_nil, or_false, not_or] at h1 h2 h3
  simp [sigRsaPssWithSha256, sigRsaPssWithSha512, sigRsaPkcs1V15WithSha256, sigRsaPkcs1V15WithSha512,
    sigEcdsaWithSha256, sigEcdsaWithSha512, sigDsaWithSha256, sigVerityRsaPkcs1V15WithSha256, sigVerityEcdsaWithSha256,
    sigVerityDsaWithSha256, h1, h2, h3]

theorem verifySignature_panic_iff (env : Env) (key : PubKey) (algo : Nat) (data sig : Bytes) :
    (∃ p, verifySignature env key algo data sig = .error p) ↔ Misfit env key algo sig := by
  have h256 := env.sha256_len data
  by_cases hr : algo ∈ rsaAlgs
  · have hne : algo ∉ ecAlgs := by
      intro h; simp only [rsaAlgs, ecAlgs, List.mem_cons, List.not_mem_nil, or_false] at hr h; omega
    have hnd : algo ∉ dsaAlgs := by
      intro h; simp only [rsaAlgs, dsaAlgs, List.mem_cons, List.not_mem_nil, or_false] at hr h; omega
    have hiff : Misfit env key algo sig ↔ key.kind ≠ .rsa := by
      constructor
      · intro h
        cases h with
        | rsaKey _ hk => exact hk
        | ecKey ha => exact absurd ha hne
        | dsaKey ha => exact absurd ha hnd
        | fewInts ha => exact ha.elim (fun h => absurd h hne) (fun h => absurd h hnd)
        | longQ ha => exact absurd ha hnd
      · exact fun hk => .rsaKey hr hk
    obtain ⟨o, ho⟩ := vs_rsa (env := env) (key := key) (data := data) (sig := sig) hr
    rw [hiff, ho]
    by_cases hk : key.kind = .rsa
    · simp [hk]
    · simp [hk]
  · by_cases he : algo ∈ ecAlgs
    · have hnd : algo ∉ dsaAlgs := by
        intro h; simp only [ecAlgs, dsaAlgs, List.mem_cons, List.not_mem_nil, or_false] at he h; omega
      obtain ⟨hashed, hv⟩ := vs_ec (env := env) (key := key) (data := data) (sig := sig) he
      rw [hv]
      cases ha : env.asn1Ints sig with
      | none =>
        constructor
        · rintro ⟨p, hp⟩; cases hp
        · intro h
          cases h with
          | rsaKey h _ => exact absurd h hr
          | ecKey _ hs => rw [ha] at hs; cases hs
          | dsaKey _ hs => rw [ha] at hs; cases hs
          | fewInts _ hs => rw [ha] at hs; cases hs
          | longQ _ hs => rw [ha] at hs; cases hs
      | some l =>
        simp only
        by_cases hk : key.kind = .ecdsa
        · simp only [hk, ne_eq, not_true_eq_false, if_false]
          constructor
          · rintro ⟨p, hp⟩
            refine .fewInts (Or.inl he) ha ?_
            match l, hp with
            | [], _ => simp
            | [_], _ => simp
            | _ :: _ :: _, hp => cases hp
          · intro h
            have hl : l.length < 2 := by
              cases h with
              | rsaKey h _ => exact absurd h hr
              | ecKey _ _ h => exact absurd hk h
              | dsaKey h => exact absurd h hnd
              | fewInts _ hs hl => rw [ha] at hs; cases hs; exact hl
              | longQ h => exact absurd h hnd
            match l, hl with
            | [], _ => exact ⟨_, rfl⟩
            | [_], _ => exact ⟨_, rfl⟩
        · simp only [hk, ne_eq, not_false_eq_true, if_true]
          exact ⟨fun _ => .ecKey he ha hk, fun _ => ⟨_, rfl⟩⟩
    · by_cases hd : algo ∈ dsaAlgs
      · rw [vs_dsa hd]
        cases ha : env.asn1Ints sig with
        | none =>
          constructor
          · rintro ⟨p, hp⟩; cases hp
          · intro h
            cases h with
            | rsaKey h _ => exact absurd h hr
            | ecKey _ hs => rw [ha] at hs; cases hs
            | dsaKey _ hs => rw [ha] at hs; cases hs
            | fewInts _ hs => rw [ha] at hs; cases hs
            | longQ _ hs => rw [ha] at hs; cases hs
        | some l =>
          simp only [h256]
          by_cases hk : key.kind = .dsa
          · simp only [hk, ne_eq, not_true_eq_false, if_false]
            by_cases hq : key.qBits / 8 > 32
            · rw [if_pos hq]
              exact ⟨fun _ => .longQ hd ha hk hq, fun _ => ⟨_, rfl⟩⟩
            · rw [if_neg hq]
              constructor
              · rintro ⟨p, hp⟩
                refine .fewInts (Or.inr hd) ha ?_
                match l, hp with
                | [], _ => simp
                | [_], _ => simp
                | _ :: _ :: _, hp => cases hp
              · intro h
                have hl : l.length < 2 := by
                  cases h with
                  | rsaKey h _ => exact absurd h hr
                  | ecKey h => exact absurd h he
                  | dsaKey _ _ h => exact absurd hk h
                  | fewInts _ hs hl => rw [ha] at hs; cases hs; exact hl
                  | longQ _ _ _ h => exact absurd h hq
                match l, hl with
                | [], _ => exact ⟨_, rfl⟩
                | [_], _ => exact ⟨_, rfl⟩
          · simp only [hk, ne_eq, not_false_eq_true, if_true]
            exact ⟨fun _ => .dsaKey hd ha hk, fun _ => ⟨_, rfl⟩⟩
      · rw [vs_other hr he hd]
        constructor
        · rintro ⟨p, hp⟩; cases hp
        · intro h
          cases h with
          | rsaKey h _ => exact absurd h hr
          | ecKey h => exact absurd h he
          | dsaKey h => exact absurd h hd
          | fewInts h => exact h.elim (fun h => absurd h he) (fun h => absurd h hd)
          | longQ h => exact absurd h hd

/-! ## A small program logic: a call either panics for reason `B` or returns a value satisfying `Q` -/

/-- The call panics only if `B`, and its result satisfies `Q`. -/
def Tr {α : Type} (B : Prop) (Q : α → Prop) : Go α → Prop
  | .error _ => B
  | .ok a => Q a

theorem Tr.bind {α β : Type} {B : Prop} {Q : α → Prop} {R : β → Prop} {x : Go α} {f : α → Go β} (hx : Tr B Q x)
    (hf : ∀ a, Q a → Tr B R (f a)) : Tr B R (x >>= f) := by
  cases x with
  | error p => exact hx
  | ok a => exact hf a hx

theorem Tr.mono {α : Type} {B : Prop} {Q R : α → Prop} {x : Go α} (hx : Tr B Q x) (h : ∀ a, Q a → R a) : Tr B R x := by
  cases x with
  | error p => exact hx
  | ok a => exact h a hx

theorem Tr.ok {α : Type} {B : Prop} {Q : α → Prop} {a : α} (h : Q a) : Tr B Q (.ok a) := h

theorem Tr.foldGo {σ α : Type} {B : Prop} {I : σ → Prop} {step : σ → α → Go (σ × Bool)} (l : List α) : ∀ s, I s →
    (∀ s a, I s → a ∈ l → Tr B (fun x => I x.1) (step s a)) → Tr B (fun x => I x.1) (foldGo step s l) := by
  induction l with
  | nil => intro s hs _; exact hs
  | cons a l ih =>
    intro s hs hstep
    simp only [Apk.foldGo]
    refine Tr.bind (hstep s a hs (by simp)) ?_
    rintro ⟨s', c⟩ hs'
    simp only
    split
    · exact ih s' hs' (fun s a hs ha => hstep s a hs (List.mem_cons_of_mem _ ha))
    · exact hs'

theorem rdLP_infix {b x rest : Bytes} (h : rdLP b = .ok (x, rest)) : x <:+: b ∧ rest <:+: b := by
  obtain ⟨_, rfl⟩ := rdLP_ok h
  exact ⟨⟨leBytes 4 x.length, rest, by simp [lp]⟩, (List.suffix_append _ _).isInfix⟩

theorem rdU32_infix {b rest : Bytes} {v : Nat} (h : rdU32 b = some (v, rest)) : rest <:+: b := by
  obtain ⟨_, rfl⟩ := rdU32_some.1 h
  exact (List.suffix_append _ _).isInfix

theorem lpSplitAux_infix (fuel : Nat) : ∀ b, ∀ x ∈ (lpSplitAux fuel b).1, x <:+: b := by
  induction fuel with
  | zero => intro b x hx; simp [lpSplitAux] at hx
  | succ n ih =>
    intro b x hx
    unfold lpSplitAux at hx
    split at hx
    · simp at hx
    · split at hx
      · simp at hx
      · rename_i y rest he
        simp only [List.mem_cons] at hx
        rcases hx with rfl | hx
        · exact (rdLP_infix he).1
        · exact (ih rest x hx).trans (rdLP_infix he).2

theorem lpSplit_infix {b x : Bytes} (h : x ∈ (lpSplit b).1) : x <:+: b := lpSplitAux_infix _ b x h

section
variable {env : Env} {file : Bytes}

/-- Only digest types that can be computed, each at most once. -/
def CdOK (cd : Digests) : Prop := (∀ p ∈ cd, p.1 ≠ CD.nonChunked256) ∧ KeysNodup cd

theorem tr_verifySignature {key : PubKey} {algo : Nat} {data sig : Bytes} (hk : SigUse env file key algo sig) :
    Tr (HasMisfit env file) (fun _ => True) (verifySignature env key algo data sig) := by
  cases h : verifySignature env key algo data sig with
  | error p => exact ⟨key, algo, sig, hk, (verifySignature_panic_iff env key algo data sig).1 ⟨p, h⟩⟩
  | ok a => trivial

theorem getDigestType_supported {a : Nat} (h : isSupportedAlgo a = true) : ∃ t, getDigestType a = .ok t ∧ t ≠ .nonChunked256 := by
  rw [isSupportedAlgo_iff] at h
  simp only [algIds, List.mem_cons, List.not_mem_nil, or_false] at h
  rcases h with rfl | rfl | rfl | rfl | rfl | rfl | rfl | rfl | rfl | rfl <;> exact ⟨_, rfl, by decide⟩

theorem compareAlgos_supported {a b : Nat} (ha : isSupportedAlgo a = true) (hb : isSupportedAlgo b = true) :
    ∃ c, compareAlgos a b = .ok c := by
  obtain ⟨t, h1, h2⟩ := getDigestType_supported ha
  obtain ⟨u, h3, h4⟩ := getDigestType_supported hb
  unfold compareAlgos
  rw [h1, h3]
  simp only [bind, Except.bind]
  cases t <;> cases u <;> simp at * <;> exact ⟨_, rfl⟩

/-- Invariant of the signature loop. -/
def BestIn (sigs : Bytes) (ctx : SigCtx) : Prop :=
  ∀ b s, ctx.best = some (b, s) → isSupportedAlgo b = true ∧ (leBytes 4 b ++ lp s) <:+: sigs

theorem record_split {rec x t : Bytes} (h8 : ¬ rec.length < 8) (h : rdLP (rec.drop 4) = .ok (x, t)) :
    (leBytes 4 (leNat (rec.take 4)) ++ lp x) <:+: rec := by
  obtain ⟨_, he⟩ := rdLP_ok h
  refine ⟨[], t, ?_⟩
  rw [List.nil_append, List.append_assoc, ← he]
  have : leBytes 4 (leNat (rec.take 4)) = rec.take 4 := by
    have h := leBytes_leNat (rec.take 4)
    rw [List.length_take, Nat.min_eq_left (by omega)] at h
    exact h
  rw [this, List.take_append_drop]

theorem tr_sigStep {sigs : Bytes} {s : Core × SigCtx} {rec : Bytes} (hi : BestIn sigs s.2) (hr : rec <:+: sigs) :
    Tr (HasMisfit env file) (fun x => BestIn sigs x.1.2) (sigStep s rec) := by
  obtain ⟨r, ctx⟩ := s
  unfold sigStep
  simp only
  split
  · exact hi
  · rename_i h8
    split
    · exact hi
    · rename_i hsup
      simp only [Bool.not_eq_true', Bool.not_eq_false] at hsup
      have hbody : ∀ (x t : Bytes), rdLP (rec.drop 4) = .ok (x, t) → (leBytes 4 (leNat (rec.take 4)) ++ lp x) <:+: sigs :=
        fun x t h => (record_split h8 h).trans hr
      cases hb : ctx.best with
      | none =>
        simp only [bind, Except.bind, if_true]
        cases hd : rdLP (rec.drop 4) with
        | error e => intro b s h; cases h
        | ok y =>
          obtain ⟨x, t⟩ := y
          intro b s h
          simp only [Option.some.injEq, Prod.mk.injEq] at h
          obtain ⟨rfl, rfl⟩ := h
          exact ⟨hsup, hbody _ _ hd⟩
      | some bb =>
        obtain ⟨b0, s0⟩ := bb
        obtain ⟨c, hc⟩ := compareAlgos_supported hsup (hi b0 s0 hb).1
        simp only [bind, Except.bind, hc]
        have hsame : ∀ b s, (some (b0, s0) : Option (Nat × Bytes)) = some (b, s) →
            isSupportedAlgo b = true ∧ (leBytes 4 b ++ lp s) <:+: sigs := by
          intro b s h; exact hi b s (hb.trans h)
        split
        · cases hd : rdLP (rec.drop 4) with
          | error e => exact hsame
          | ok y =>
            obtain ⟨x, t⟩ := y
            intro b s h
            simp only [Option.some.injEq, Prod.mk.injEq] at h
            obtain ⟨rfl, rfl⟩ := h
            exact ⟨hsup, hbody _ _ hd⟩
        · exact hsame

theorem tr_parseSignatures {sigs : Bytes} {r : Core} :
    Tr (HasMisfit env file) (fun x => BestIn sigs x.2.1) (parseSignatures sigs r) := by
  unfold parseSignatures
  refine Tr.bind (Tr.foldGo (I := fun s : Core × SigCtx => BestIn sigs s.2) (lpSplit sigs).1 (r, {}) ?_ ?_) ?_
  · intro b s hh; cases hh
  · intro s a hi ha; exact tr_sigStep hi (lpSplit_infix ha)
  · rintro ⟨⟨r', ctx⟩, d⟩ hi
    simp only at hi ⊢
    split
    · exact hi
    · split
      · exact hi
      · split <;> exact hi

theorem tr_parsePublicKey {sigs pk : Bytes} {best : Nat × Bytes} {sd : Bytes} {r : Core} (hpk : (lp sigs ++ lp pk) <:+: file)
    (hs : (leBytes 4 best.1 ++ lp best.2) <:+: sigs) :
    Tr (HasMisfit env file) (fun _ => True) (parsePublicKey env pk best sd r) := by
  unfold parsePublicKey
  cases hk : env.parsePKIX pk with
  | none => trivial
  | some k =>
    simp only
    refine Tr.bind (tr_verifySignature (.signer hpk hs hk)) ?_
    intro o _
    cases o <;> trivial

theorem two_lp {b x y r1 r2 : Bytes} (h1 : rdLP b = .ok (x, r1)) (h2 : rdLP r1 = .ok (y, r2)) : (lp x ++ lp y) <:+: b := by
  obtain ⟨_, rfl⟩ := rdLP_ok h1
  obtain ⟨_, rfl⟩ := rdLP_ok h2
  exact ⟨[], r2, by simp⟩

theorem mem_mset {κ ν : Type} [DecidableEq κ] {m : List (κ × ν)} {k : κ} {v : ν} {p : κ × ν} (h : p ∈ mset m k v) :
    p = (k, v) ∨ p ∈ m := by
  induction m with
  | nil => simp only [mset, List.mem_singleton] at h; exact Or.inl h
  | cons q qs ih =>
    simp only [mset] at h
    split at h
    · rcases List.mem_cons.1 h with h | h
      · exact Or.inl h
      · exact Or.inr (List.mem_cons_of_mem _ h)
    · rcases List.mem_cons.1 h with h | h
      · exact Or.inr (by rw [h]; simp)
      · rcases ih h with h | h
        · exact Or.inl h
        · exact Or.inr (List.mem_cons_of_mem _ h)

theorem mset_CdOK {cd : Digests} {t : CD} {d : Bytes} (h : CdOK cd) (ht : t ≠ .nonChunked256) : CdOK (mset cd t d) := by
  refine ⟨fun p hp => ?_, mset_nodup h.2 _ _⟩
  rcases mem_mset hp with hp | hp
  · rw [hp]; exact ht
  · exact h.1 p hp

theorem tr_parseDigests {B : Prop} {ds : Bytes} {best : Nat} {sa : List Nat} {cd : Digests} {r : Core} (hb : isSupportedAlgo best = true) (hcd : CdOK cd) :
    Tr B (fun x => CdOK x.2.1) (parseDigests ds best sa cd r) := by
  unfold parseDigests
  refine Tr.bind (Tr.foldGo (I := fun _ => True) (lpSplit ds).1 _ trivial ?_) ?_
  · rintro ⟨r, al, d⟩ a _ _
    unfold digestStep
    simp only
    split
    · trivial
    · split
      · cases rdLP (a.drop 4) <;> trivial
      · trivial
  · rintro ⟨⟨r', al, d⟩, c⟩ _
    simp only
    split
    · exact hcd
    · split
      · exact hcd
      · split
        · exact hcd
        · obtain ⟨t, ht, hn⟩ := getDigestType_supported hb
          rw [ht]
          simp only [bind, Except.bind]
          have := mset_CdOK (d := d) hcd hn
          cases mget cd t with
          | none => exact this
          | some pr => simp only; split <;> exact this

theorem tr_v2AttrStep {B : Prop} {m : Int} {r : Core} {a : Bytes} : Tr B (fun _ => True) (v2AttrStep m r a) := by
  unfold v2AttrStep
  repeat' (first | trivial | split)

theorem tr_v2VerifySigner {m : Int} {s : Bytes} {cd : Digests} {r : Core} (hs : s <:+: file) (hcd : CdOK cd) :
    Tr (HasMisfit env file) (fun x => CdOK x.2) (v2VerifySigner env m s cd r) := by
  unfold v2VerifySigner
  cases h1 : rdLP s with
  | error e => exact hcd
  | ok x =>
    obtain ⟨sd, b1⟩ := x
    simp only
    have hsd := (rdLP_infix h1).1.trans hs
    have hb1 := (rdLP_infix h1).2.trans hs
    cases h2 : rdLP b1 with
    | error e => exact hcd
    | ok x =>
      obtain ⟨sigs, b2⟩ := x
      simp only
      have hb2 := (rdLP_infix h2).2.trans hb1
      refine Tr.bind (tr_parseSignatures (sigs := sigs)) ?_
      rintro ⟨r1, ctx, ok⟩ hi
      simp only at hi ⊢
      split
      · rename_i best hbest
        obtain ⟨hsup, hsig⟩ := hi best.1 best.2 hbest
        cases h3 : rdLP b2 with
        | error e => exact hcd
        | ok x =>
          obtain ⟨pk, t⟩ := x
          simp only
          refine Tr.bind (tr_parsePublicKey ((two_lp h2 h3).trans hb1) hsig) ?_
          rintro ⟨r2, ok⟩ _
          simp only
          split
          · exact hcd
          · cases h4 : rdLP sd with
            | error e => exact hcd
            | ok x =>
              obtain ⟨ds, d1⟩ := x
              simp only
              cases h5 : rdLP d1 with
              | error e => exact hcd
              | ok x =>
                obtain ⟨cs, d2⟩ := x
                simp only
                split
                · exact hcd
                · refine Tr.bind (tr_parseDigests hsup hcd) ?_
                  rintro ⟨r4, cd', ok⟩ hcd'
                  simp only at hcd' ⊢
                  split
                  · exact hcd'
                  · cases h6 : rdLP d2 with
                    | error e => exact hcd'
                    | ok x =>
                      obtain ⟨attrs, t⟩ := x
                      simp only
                      refine Tr.bind (Tr.foldGo (I := fun _ => True) (lpSplit attrs).1 _ trivial (fun _ _ _ _ => tr_v2AttrStep.mono (fun _ _ => trivial))) ?_
                      rintro ⟨r5, d⟩ _
                      simp only
                      split
                      · exact hcd'
                      · split <;> exact hcd'
      · exact hcd

theorem tr_v2Signers {m : Int} (ss : List Bytes) : ∀ {cd : Digests} {r : Core}, (∀ s ∈ ss, s <:+: file) → CdOK cd →
    Tr (HasMisfit env file) (fun x => CdOK x.2) (v2Signers env m ss cd r) := by
  induction ss with
  | nil => intro cd r _ h; exact h
  | cons s ss ih =>
    intro cd r hs hcd
    simp only [v2Signers]
    refine Tr.bind (tr_v2VerifySigner (hs s (by simp)) hcd) ?_
    rintro ⟨r', cd'⟩ h
    exact ih (fun x hx => hs x (List.mem_cons_of_mem _ hx)) h

theorem tr_v2ParseSigners {m : Int} {b : Bytes} {cd : Digests} {r : Core} (hb : b <:+: file) (hcd : CdOK cd) :
    Tr (HasMisfit env file) (fun x => CdOK x.2) (v2ParseSigners env m b cd r) := by
  unfold v2ParseSigners
  cases h1 : rdLP b with
  | error e => exact hcd
  | ok x =>
    obtain ⟨ss, t⟩ := x
    simp only
    refine Tr.bind (tr_v2Signers _ (fun s hs => (lpSplit_infix hs).trans ((rdLP_infix h1).1.trans hb)) hcd) ?_
    rintro ⟨r', cd'⟩ h
    simp only at h ⊢
    split
    · exact h
    · split <;> exact h

/-! ## v3 -/

/-- Keys of the nodes come from the file. -/
def NodesIn (env : Env) (file : Bytes) (nodes : List LNode) : Prop := ∀ n ∈ nodes, ∃ enc t flags t1,
  (lp (lp enc ++ t) ++ leBytes 4 flags ++ leBytes 4 n.algo ++ t1) <:+: file ∧
    (env.parseCertAndr enc = some n.cert ∨ env.parseCertStd enc = some n.cert)

theorem tr_lineageStep {parse : Bytes → Option Cert} (hp : parse = env.parseCertAndr ∨ parse = env.parseCertStd)
    {nodes : List LNode} {b : Bytes} (hn : NodesIn env file nodes) (hb : b <:+: file) :
    Tr (HasMisfit env file) (fun x => ∀ ns, x = .ok ns → NodesIn env file ns) (lineageStep env parse nodes b) := by
  have herr : ∀ e : E, Tr (HasMisfit env file) (fun x : Except E (List LNode) => ∀ ns, x = .ok ns → NodesIn env file ns) (.ok (.error e)) := by
    intro e ns h; cases h
  unfold lineageStep
  cases h1 : rdLP b with
  | error e => exact herr _
  | ok x =>
    obtain ⟨sd, n1⟩ := x
    have hsd := (rdLP_infix h1).1.trans hb
    have hn1 := (rdLP_infix h1).2.trans hb
    simp only
    cases h2 : rdU32 n1 with
    | none => exact herr _
    | some x =>
      obtain ⟨flags, n2⟩ := x
      have hn2 := (rdU32_infix h2).trans hn1
      simp only
      cases h3 : rdU32 n2 with
      | none => exact herr _
      | some x =>
        obtain ⟨algo, n3⟩ := x
        have hn3 := (rdU32_infix h3).trans hn2
        simp only
        cases h4 : rdLP n3 with
        | error e => exact herr _
        | ok x =>
          obtain ⟨sig, t⟩ := x
          have hnode : (lp sd ++ leBytes 4 flags ++ leBytes 4 algo ++ lp sig) <:+: file := by
            refine List.IsInfix.trans ?_ hb
            obtain ⟨_, rfl⟩ := rdLP_ok h1
            obtain ⟨_, rfl⟩ := rdU32_some.1 h2
            obtain ⟨_, rfl⟩ := rdU32_some.1 h3
            obtain ⟨_, rfl⟩ := rdLP_ok h4
            exact ⟨[], t, by simp⟩
          simp only
          cases hl : nodes.getLast?
          refine Tr.bind (Q := fun _ => True) trivial ?_
          rotate_left
          rename_i last
          obtain ⟨enc0, t0, fl, t1, g1, g2⟩ := hn last (List.mem_of_getLast? hl)
          refine Tr.bind (tr_verifySignature (.lineage g1 g2 hnode)) ?_
          all_goals
            intro bad _
            cases bad with
            | some e => exact herr _
            | none =>
              simp only
              cases h5 : rdLP sd with
              | error e => exact herr _
              | ok x =>
                obtain ⟨enc, s1⟩ := x
                simp only
                cases h6 : rdU32 s1 with
                | none => exact herr _
                | some x =>
                  obtain ⟨pa, t⟩ := x
                  simp only
                  split
                  · exact herr _
                  · cases h7 : parse enc with
                    | none => exact herr _
                    | some c =>
                      simp only
                      split
                      · exact herr _
                      · intro ns hns
                        cases hns
                        intro n hnn
                        rcases List.mem_append.1 hnn with h | h
                        · exact hn n h
                        · simp only [List.mem_singleton] at h
                          subst h
                          obtain ⟨_, rfl⟩ := rdLP_ok h5
                          refine ⟨enc, s1, flags, lp sig, hnode, ?_⟩
                          rcases hp with rfl | rfl
                          · exact Or.inl h7
                          · exact Or.inr h7

theorem tr_lineageLoop {parse : Bytes → Option Cert} (hp : parse = env.parseCertAndr ∨ parse = env.parseCertStd)
    (bs : List Bytes) : ∀ {nodes : List LNode}, NodesIn env file nodes → (∀ b ∈ bs, b <:+: file) →
    Tr (HasMisfit env file) (fun _ => True) (lineageLoop env parse nodes bs) := by
  induction bs with
  | nil => intro nodes _ _; trivial
  | cons b bs ih =>
    intro nodes hn hb
    simp only [lineageLoop]
    refine Tr.bind (tr_lineageStep hp hn (hb b (by simp))) ?_
    intro x hx
    cases x with
    | error e => trivial
    | ok ns => exact ih (hx ns rfl) (fun y hy => hb y (List.mem_cons_of_mem _ hy))

theorem tr_readLineage {b : Bytes} (hb : b <:+: file) : Tr (HasMisfit env file) (fun _ => True) (readLineage env b) := by
  unfold readLineage
  split
  · trivial
  · cases h : rdU32 b with
    | none => trivial
    | some x =>
      obtain ⟨v, rest⟩ := x
      simp only
      split
      · trivial
      · refine Tr.bind (tr_lineageLoop (Or.inr rfl) _ (by intro n hn; cases hn)
          (fun x hx => (lpSplit_infix hx).trans ((rdU32_infix h).trans hb))) ?_
        intro x _
        cases x with
        | error e => trivial
        | ok ns => simp only; split <;> trivial

theorem tr_v3AttrStep {p : V3Params} {main : Cert} {st : AttrSt} {a : Bytes} (ha : a <:+: file) :
    Tr (HasMisfit env file) (fun _ => True) (v3AttrStep env p main st a) := by
  unfold v3AttrStep
  cases h : rdU32 a with
  | none => trivial
  | some x =>
    obtain ⟨id, rest⟩ := x
    simp only
    split
    · refine Tr.bind (tr_readLineage ((rdU32_infix h).trans ha)) ?_
      intro x _
      cases x with
      | error e => trivial
      | ok ns =>
        simp only
        repeat' (first | trivial | split)
    · repeat' (first | trivial | split)

theorem tr_v3Attrs {p : V3Params} {main : Cert} {d : Bytes} {r : Core} (hd : d <:+: file) :
    Tr (HasMisfit env file) (fun _ => True) (v3Attrs env p main d r) := by
  unfold v3Attrs
  cases h : rdLP d with
  | error e => trivial
  | ok x =>
    obtain ⟨attrs, t⟩ := x
    simp only
    refine Tr.bind (Tr.foldGo (I := fun _ => True) (lpSplit attrs).1 _ trivial
      (fun _ _ _ ha => (tr_v3AttrStep ((lpSplit_infix ha).trans ((rdLP_infix h).1.trans hd))).mono (fun _ _ => trivial))) ?_
    rintro ⟨st, dn⟩ _
    simp only
    repeat' (first | trivial | split)

theorem tr_v3SignerTail {p : V3Params} {cs ds pk : Bytes} {best : Nat} {al : List Nat} {d4 : Bytes} {cd : Digests} {r : Core}
    (hsup : isSupportedAlgo best = true) (hd : d4 <:+: file) (hcd : CdOK cd) :
    Tr (HasMisfit env file) (fun x => CdOK x.2.1) (v3SignerTail env p cs ds pk best al d4 cd r) := by
  unfold v3SignerTail
  simp only
  split
  · exact hcd
  · refine Tr.bind (tr_parseDigests hsup hcd) ?_
    rintro ⟨r', cd', ok⟩ hcd'
    simp only at hcd' ⊢
    split
    · exact hcd'
    · refine Tr.bind (tr_v3Attrs hd) ?_
      rintro ⟨r'', lin⟩ _
      exact hcd'

theorem tr_v3SignerBody {p : V3Params} {sd b1 : Bytes} {mn : Int} {cd : Digests} {r : Core} (hsd : sd <:+: file)
    (hb1 : b1 <:+: file) (hcd : CdOK cd) :
    Tr (HasMisfit env file) (fun x => CdOK x.2.1) (v3SignerBody env p sd b1 mn cd r) := by
  unfold v3SignerBody
  cases h2 : rdLP b1 with
  | error e => exact hcd
  | ok x =>
    obtain ⟨sigs, b2⟩ := x
    simp only
    have hb2 := (rdLP_infix h2).2.trans hb1
    refine Tr.bind (tr_parseSignatures (sigs := sigs)) ?_
    rintro ⟨r1, ctx, ok⟩ hi
    simp only at hi ⊢
    split
    · rename_i best hbest
      obtain ⟨hsup, hsig⟩ := hi best.1 best.2 hbest
      cases h3 : rdLP b2 with
      | error e => exact hcd
      | ok x =>
        obtain ⟨pk, t⟩ := x
        simp only
        refine Tr.bind (tr_parsePublicKey ((two_lp h2 h3).trans hb1) hsig) ?_
        rintro ⟨r2, ok⟩ _
        simp only
        split
        · exact hcd
        · cases h4 : rdLP sd with
          | error e => exact hcd
          | ok x =>
            obtain ⟨ds, d1⟩ := x
            simp only
            cases h5 : rdLP d1 with
            | error e => exact hcd
            | ok x =>
              obtain ⟨cs, d2⟩ := x
              simp only
              cases h6 : rdU32 d2 with
              | none => exact hcd
              | some x =>
                obtain ⟨smin, d3⟩ := x
                simp only
                cases h7 : rdU32 d3 with
                | none => exact hcd
                | some x =>
                  obtain ⟨smax, d4⟩ := x
                  simp only
                  exact tr_v3SignerTail hsup ((rdU32_infix h7).trans ((rdU32_infix h6).trans ((rdLP_infix h5).2.trans
                    ((rdLP_infix h4).2.trans hsd)))) hcd
    · exact hcd

theorem tr_v3VerifySigner {p : V3Params} {s : Bytes} {cd : Digests} {r : Core} (hs : s <:+: file) (hcd : CdOK cd) :
    Tr (HasMisfit env file) (fun x => CdOK x.2.1) (v3VerifySigner env p s cd r) := by
  unfold v3VerifySigner
  cases h1 : rdLP s with
  | error e => exact hcd
  | ok x =>
    obtain ⟨sd, b1⟩ := x
    simp only
    cases h2 : rdU32 b1 with
    | none => exact hcd
    | some x =>
      obtain ⟨mn, b2⟩ := x
      simp only
      cases h3 : rdU32 b2 with
      | none => exact hcd
      | some x =>
        obtain ⟨mx, b3⟩ := x
        simp only
        refine Tr.bind (tr_v3SignerBody ((rdLP_infix h1).1.trans hs)
          ((rdU32_infix h3).trans ((rdU32_infix h2).trans ((rdLP_infix h1).2.trans hs))) hcd) ?_
        rintro ⟨r', cd', lin⟩ h
        exact h

theorem tr_v3Signers {p : V3Params} (ss : List Bytes) : ∀ {cd : Digests} {r : Core} {acc : List SignerInfo},
    (∀ s ∈ ss, s <:+: file) → CdOK cd → Tr (HasMisfit env file) (fun x => CdOK x.2.1) (v3Signers env p ss cd r acc) := by
  induction ss with
  | nil => intro cd r acc _ h; exact h
  | cons s ss ih =>
    intro cd r acc hs hcd
    simp only [v3Signers]
    refine Tr.bind (tr_v3VerifySigner (hs s (by simp)) hcd) ?_
    rintro ⟨r', cd', info⟩ h
    exact ih (fun x hx => hs x (List.mem_cons_of_mem _ hx)) h

theorem tr_v3ParseSigners {p : V3Params} {b : Bytes} {cd : Digests} {r : Core} (hb : b <:+: file) (hcd : CdOK cd) :
    Tr (HasMisfit env file) (fun x => CdOK x.2.1) (v3ParseSigners env p b cd r) := by
  unfold v3ParseSigners
  cases h1 : rdLP b with
  | error e => exact hcd
  | ok x =>
    obtain ⟨ss, t⟩ := x
    simp only
    refine Tr.bind (tr_v3Signers _ (fun s hs => (lpSplit_infix hs).trans ((rdLP_infix h1).1.trans hb)) hcd) ?_
    rintro ⟨r', cd', i⟩ h
    simp only at h ⊢
    split <;> exact h

/-! ## Container and frosting -/

/-- Block values come from the file. -/
def ValsIn (file : Bytes) (m : List (Nat × Bytes)) : Prop := ∀ p ∈ m, p.2 <:+: file

theorem ValsIn.mset {m : List (Nat × Bytes)} {k : Nat} {v : Bytes} (h : ValsIn file m) (hv : v <:+: file) :
    ValsIn file (Apk.mset m k v) := by
  intro p hp
  rcases mem_mset hp with rfl | hp
  · exact hv
  · exact h p hp

theorem toI32_nonneg_small {n : Nat} (h : n < 2147483648) : 0 ≤ toI32 n := by
  unfold toI32
  simp only
  rw [Nat.mod_eq_of_lt (by omega), if_pos h]
  omega

theorem frVarint_neg {b rest : Bytes} {k : Int} (h : frVarint b = .ok (k, rest)) (hk : k < 0) :
    ∃ v, v <:+: b ∧ NegativeVarint v := by
  have hb : ∀ x : UInt8, x.toNat < 256 := fun x => x.toNat_lt
  match b, h with
  | [], h => cases h
  | x0 :: r0, h =>
    have := hb x0
    unfold frVarint at h
    simp only at h
    by_cases h0 : x0.toNat < 128
    · rw [if_pos h0] at h
      cases h
      omega
    · rw [if_neg h0] at h
      match r0, h with
      | [], h => cases h
      | x1 :: r1, h =>
        simp only at h
        by_cases h1 : x1.toNat < 128
        · rw [if_pos h1] at h
          cases h
          have := @toI32_nonneg_small (x0.toNat % 128 + x1.toNat * 2 ^ 7) (by omega)
          omega
        · rw [if_neg h1] at h
          match r1, h with
          | [], h => cases h
          | x2 :: r2, h =>
            simp only at h
            by_cases h2 : x2.toNat < 128
            · rw [if_pos h2] at h
              cases h
              have := @toI32_nonneg_small (x0.toNat % 128 + x1.toNat % 128 * 2 ^ 7 + x2.toNat * 2 ^ 14) (by omega)
              omega
            · rw [if_neg h2] at h
              match r2, h with
              | [], h => cases h
              | x3 :: r3, h =>
                simp only at h
                by_cases h3 : x3.toNat < 128
                · rw [if_pos h3] at h
                  cases h
                  have := @toI32_nonneg_small (x0.toNat % 128 + x1.toNat % 128 * 2 ^ 7 + x2.toNat % 128 * 2 ^ 14 + x3.toNat * 2 ^ 21)
                    (by omega)
                  omega
                · rw [if_neg h3] at h
                  match r3, h with
                  | [], h => cases h
                  | x4 :: r4, h =>
                    simp only at h
                    by_cases h4 : x4.toNat ≥ 128
                    · rw [if_pos h4] at h; cases h
                    · rw [if_neg h4] at h
                      cases h
                      by_cases h5 : 8 ≤ x4.toNat % 16
                      · exact ⟨[x0, x1, x2, x3, x4], ⟨[], rest, by simp⟩, x0, x1, x2, x3, x4, rfl, by omega, by omega, by omega,
                          by omega, by omega, h5⟩
                      · have := @toI32_nonneg_small (x0.toNat % 128 + x1.toNat % 128 * 2 ^ 7 + x2.toNat % 128 * 2 ^ 14
                          + x3.toNat % 128 * 2 ^ 21 + (x4.toNat % 16) * 2 ^ 28) (by omega)
                        omega

theorem frRead_neg {b : Bytes} {pos next : Nat} {k : Int} (h : frRead b pos = .ok (k, next)) (hk : k < 0) :
    ∃ v, v <:+: b ∧ NegativeVarint v := by
  unfold frRead at h
  cases hv : frVarint (b.drop pos) with
  | error e => rw [hv] at h; cases h
  | ok x =>
    obtain ⟨w, rest⟩ := x
    rw [hv] at h
    cases h
    obtain ⟨v, h1, h2⟩ := frVarint_neg hv hk
    exact ⟨v, h1.trans (List.drop_suffix _ _).isInfix, h2⟩

theorem frLoop_panic {b : Bytes} {oA : Nat} {pm : Int} {ps pz lim : Nat} {q : Panic} (fuel : Nat) : ∀ i pos,
    frLoop env b oA pm ps pz lim fuel i pos = .error q → ∃ v, v <:+: b ∧ NegativeVarint v := by
  induction fuel with
  | zero => intro i pos h; cases h
  | succ n ih =>
    intro i pos h
    unfold frLoop at h
    split at h
    · cases h
    · split at h
      · cases h
      · simp only at h
        split at h
        · cases h
        · split at h
          · cases h
          · split at h
            · cases h
            · split at h
              · exact ih _ _ h
              · split at h
                · cases h
                · rename_i keyIndex pos3 hki
                  split at h
                  · cases h
                  · split at h
                    · cases h
                    · split at h
                      · cases h
                      · split at h
                        · cases h
                        · split at h
                          · cases h
                          · split at h
                            · rename_i hneg
                              exact frRead_neg hki hneg
                            · split at h
                              · cases h
                              · cases h
                              · split at h <;> cases h

theorem frParse_panic {b : Bytes} {q : Panic} (h : frParse env b = .error q) : ∃ v, v <:+: b ∧ NegativeVarint v := by
  unfold frParse at h
  split at h
  · cases h
  · split at h
    · cases h
    · split at h
      · cases h
      · split at h
        · cases h
        · split at h
          · cases h
          · split at h
            · cases h
            · exact frLoop_panic _ _ _ h

/-- Both lists of blocks come from the file. -/
def StIn (file : Bytes) (st : PairState) : Prop := ValsIn file st.blocks ∧ ValsIn file st.extra

theorem tr_pairStep {m : Int} {st : PairState} {id : Nat} {v : Bytes} {e : Bool} (hs : StIn file st)
    (hv : (leBytes 4 id ++ v) <:+: file) :
    Tr (HasNegativeIndex file) (fun x => ∀ st', x = .ok st' → StIn file st') (pairStep env m st id v e) := by
  have hvv : v <:+: file := (List.suffix_append _ _).isInfix.trans hv
  have herr : ∀ e : E, Tr (HasNegativeIndex file) (fun x : Except E PairState => ∀ st', x = .ok st' → StIn file st') (.ok (.error e)) := by
    intro e st' h; cases h
  have hok : ∀ st1 : PairState, StIn file st1 →
      Tr (HasNegativeIndex file) (fun x : Except E PairState => ∀ st', x = .ok st' → StIn file st') (.ok (.ok st1)) := by
    intro st1 h st' he; cases he; exact h
  unfold pairStep
  split
  · split
    · exact herr _
    · refine hok _ ⟨?_, ?_⟩
      · simp only; split
        · exact hs.1.mset hvv
        · exact hs.1
      · simp only; split
        · exact hs.2.mset hvv
        · exact hs.2
  · split
    · exact hok _ hs
    · split
      · rename_i hid
        split
        · exact herr _
        · cases hf : frParse env v with
          | error q =>
            obtain ⟨w, h1, h2⟩ := frParse_panic hf
            have : id = 0x2146444e := hid
            rw [this] at hv
            exact ⟨v, w, hv, h1, h2⟩
          | ok fr =>
            simp only [bind, Except.bind]
            split <;> exact hok _ hs
      · split
        · split
          · exact herr _
          · exact hok _ ⟨hs.1.mset hvv, hs.2⟩
        · split
          · exact herr _
          · exact hok _ ⟨hs.1, hs.2.mset hvv⟩

theorem tr_parsePairsAux {m : Int} (fuel : Nat) : ∀ {b : Bytes} {st : PairState}, b <:+: file → StIn file st →
    Tr (HasNegativeIndex file) (fun x => StIn file x.1) (parsePairsAux env m fuel b st) := by
  induction fuel with
  | zero => intro b st _ h; exact h
  | succ n ih =>
    intro b st hb hs
    unfold parsePairsAux
    split
    · exact hs
    · split
      · exact hs
      · simp only
        split
        · exact hs
        · split
          · exact hs
          · rename_i h8 hr ha
            have hlen : 12 ≤ b.length := by
              simp only [List.length_drop] at ha
              omega
            have hval : (leBytes 4 (leNat ((b.drop 8).take 4)) ++ slice (b.drop 8) 4 ((toI64 (leNat (b.take 8))).toNat - 4)) <:+: file := by
              refine List.IsInfix.trans ?_ hb
              have e1 : leBytes 4 (leNat ((b.drop 8).take 4)) = (b.drop 8).take 4 := by
                have h := leBytes_leNat ((b.drop 8).take 4)
                rw [List.length_take, List.length_drop, Nat.min_eq_left (by omega)] at h
                exact h
              rw [e1]
              unfold slice
              refine ⟨b.take 8, ((b.drop 8).drop 4).drop ((toI64 (leNat (b.take 8))).toNat - 4), ?_⟩
              rw [List.append_assoc, List.append_assoc, List.take_append_drop, List.take_append_drop, List.take_append_drop]
            have h1 := tr_pairStep (env := env) (m := m) (e := decide ((b.drop 8).length = 4)) hs hval
            cases hp : pairStep env m st (leNat ((b.drop 8).take 4)) (slice (b.drop 8) 4 ((toI64 (leNat (b.take 8))).toNat - 4))
              (decide ((b.drop 8).length = 4)) with
            | error q => rw [hp] at h1; exact h1
            | ok x =>
              rw [hp] at h1
              cases x with
              | error e => exact hs
              | ok st' =>
                exact ih (((List.drop_suffix _ _).isInfix.trans (List.drop_suffix _ _).isInfix).trans hb) (h1 st' rfl)

theorem slice_infix {b : Bytes} {lo n : Nat} : slice b lo n <:+: b :=
  (List.take_prefix _ _).isInfix.trans (List.drop_suffix _ _).isInfix

theorem tr_findSignatureBlocks {m : Int} : Tr (HasNegativeIndex file)
    (fun x => StIn file x.2.1 ∧ ∀ f, x.1 = some f → ∃ head area cd rec, ApkLayout file head area cd rec ∧ f = layoutFound head area cd rec)
    (findSignatureBlocks env file m) := by
  have hnil : StIn file {} := ⟨(fun p hp => by cases hp), (fun p hp => by cases hp)⟩
  by_cases hl : ∃ head area cd rec, ApkLayout file head area cd rec
  · obtain ⟨head, area, cd, rec, hl⟩ := hl
    rw [layout_find env m hl]
    have harea : area <:+: file := by
      rw [hl.split]
      unfold sigBlock
      exact ⟨head ++ leBytes 8 (area.length + 24), leBytes 8 (area.length + 24) ++ sigBlockMagic ++ cd ++ rec, by simp⟩
    have h1 := tr_parsePairsAux (env := env) (m := m) (area.length + 1) harea hnil
    unfold parsePairs
    cases hp : parsePairsAux env m (area.length + 1) area {} with
    | error q => rw [hp] at h1; exact h1
    | ok x =>
      rw [hp] at h1
      obtain ⟨st, e⟩ := x
      exact ⟨h1, fun f hf => ⟨head, area, cd, rec, hl, by cases hf; rfl⟩⟩
  · obtain ⟨e, he⟩ := no_layout_find env m (fun a b c d h => hl ⟨a, b, c, d, h⟩)
    rw [he]
    exact ⟨hnil, fun f hf => by cases hf⟩

/-! ## The whole signing block -/

/-- The file explains a panic. -/
def Explained (env : Env) (file : Bytes) : Prop := HasMisfit env file ∨ HasNegativeIndex file

theorem Tr.weaken {α : Type} {B C : Prop} {Q : α → Prop} {x : Go α} (hx : Tr B Q x) (h : B → C) : Tr C Q x := by
  cases x with
  | error p => exact h hx
  | ok a => exact hx

theorem foldl_mset_CdOK {l cd : Digests} (h : CdOK cd) (hl : CdOK l) : CdOK (l.foldl (fun m p => mset m p.1 p.2) cd) := by
  induction l generalizing cd with
  | nil => exact h
  | cons p l ih =>
    exact ih (mset_CdOK h (hl.1 p (by simp))) ⟨fun q hq => hl.1 q (List.mem_cons_of_mem _ hq), (List.nodup_cons.1 hl.2).2⟩

theorem nil_CdOK : CdOK [] := ⟨(fun p hp => by cases hp), by simp [KeysNodup]⟩

theorem tr_v31ParseSigners {m : Int} {b : Bytes} {cd : Digests} {r : Core} {v3 : Option Core} (hb : b <:+: file) (hcd : CdOK cd)
    (hx : ValsIn file r.extraBlocks) : Tr (HasMisfit env file) (fun x => CdOK x.2.2.1) (v31ParseSigners env m b cd r v3) := by
  unfold v31ParseSigners
  have h0 := tr_v3ParseSigners (env := env) (file := file) (p := ⟨true, m, 0⟩) (r := r) hb nil_CdOK
  cases h1 : v3ParseSigners env ⟨true, m, 0⟩ b [] r with
  | error q => rw [h1] at h0; exact h0
  | ok x =>
    obtain ⟨r1, cd31, s31⟩ := x
    rw [h1] at h0
    have hx1 : r1.extraBlocks = r.extraBlocks := (v3ParseSigners_ext h1).extra
    simp only [bind, Except.bind]
    cases hg : mget r1.extraBlocks blockIdSchemeV3 with
    | none => exact foldl_mset_CdOK hcd h0
    | some vb =>
      simp only
      have hvb : vb <:+: file := by
        rw [hx1] at hg
        exact hx _ (mget_mem hg)
      have h2 := tr_v3ParseSigners (env := env) (file := file) (p := ⟨false, m, rotationMinSdk s31⟩) (r := { schemeId := 3 }) hvb hcd
      cases h3 : v3ParseSigners env ⟨false, m, rotationMinSdk s31⟩ vb cd { schemeId := 3 } with
      | error q => rw [h3] at h2; exact h2
      | ok y => obtain ⟨a, b, c⟩ := y; rw [h3] at h2; exact h2

theorem tr_extractCerts {s : Scheme} {m : Int} {b : Bytes} {r : Core} {v3 : Option Core} (hb : b <:+: file)
    (hx : ValsIn file r.extraBlocks) : Tr (HasMisfit env file) (fun x => CdOK x.2.2.1) (extractCerts env s m b r v3) := by
  unfold extractCerts
  cases s with
  | v2 =>
    simp only
    refine Tr.bind (tr_v2ParseSigners hb nil_CdOK) ?_
    rintro ⟨r', cd⟩ h
    exact h
  | v3 =>
    simp only
    refine Tr.bind (tr_v3ParseSigners hb nil_CdOK) ?_
    rintro ⟨r', cd, i⟩ h
    exact h
  | v31 => exact tr_v31ParseSigners hb nil_CdOK hx

theorem verifyIntegrity_nopanic {head area cd rec : Bytes} (hl : ApkLayout file head area cd rec) {m : Digests} (hne : m ≠ [])
    (hcd : CdOK m) (r : Core) : ∃ x, verifyIntegrity env file (layoutFound head area cd rec) m r = .ok x := by
  rw [verifyIntegrity_eq env hl hne, if_neg]
  · exact ⟨_, rfl⟩
  · intro h
    obtain ⟨p, hp, he⟩ := List.mem_map.1 h
    exact hcd.1 p hp he

theorem finalizeScheme_extra {s : Scheme} {mn m : Int} {fin : FinState} {r r' : Core} {v v' : Option Core}
    (h : finalizeScheme s mn m fin r v = (r', v')) : r'.extraBlocks = r.extraBlocks := by
  cases s with
  | v2 => cases h; rfl
  | v3 => cases h; exact (v3Finalize_grow _ _ _ _ _ _).extra
  | v31 =>
    unfold finalizeScheme v31Finalize at h
    simp only at h
    cases v with
    | none => cases h; exact (v3Finalize_grow _ _ _ _ _ _).extra
    | some v3r => cases h; exact (v3Finalize_grow _ _ _ _ _ _).extra

theorem tr_verifyScheme {f : Found} (hf : ∃ head area cd rec, ApkLayout file head area cd rec ∧ f = layoutFound head area cd rec)
    {s : Scheme} {mn m : Int} {b : Bytes} {r : Core} {v3 : Option Core} (hb : b <:+: file)
    (hx : ValsIn file r.extraBlocks) : Tr (HasMisfit env file) (fun x => x.1.extraBlocks = r.extraBlocks)
      (verifyScheme env file f s mn m b r v3) := by
  obtain ⟨head, area, cd, rec, hl, rfl⟩ := hf
  unfold verifyScheme
  have h0 := tr_extractCerts (env := env) (s := s) (m := m) (v3 := v3) hb hx
  cases hE : extractCerts env s m b r v3 with
  | error q => rw [hE] at h0; exact h0
  | ok x =>
    rw [hE] at h0
    obtain ⟨r1, v1, cd1, fin⟩ := x
    have hx1 := (extract_grow hE).extra
    have hcd : CdOK cd1 := h0
    simp only [bind, Except.bind]
    split
    · exact hx1
    · split
      · exact hx1
      · rename_i hne
        obtain ⟨x, he⟩ := verifyIntegrity_nopanic (env := env) hl (m := cd1) (by intro h; rw [h] at hne; exact hne rfl) hcd r1
        rw [he]
        obtain ⟨r2, ok⟩ := x
        have hx2 := (verifyIntegrity_ext he).extra
        simp only
        split
        · exact hx2.trans hx1
        · exact (finalizeScheme_extra (mn := mn) (m := m) (fin := fin) (v := v1) rfl).trans (hx2.trans hx1)

theorem pickScheme_mem {blocks : List (Nat × Bytes)} {s : Scheme} {b : Bytes} (h : pickScheme blocks = some (s, b))
    (hv : ValsIn file blocks) : b <:+: file := by
  unfold pickScheme at h
  split at h
  · rename_i x hx
    cases h
    exact hv _ (mget_mem hx)
  · split at h
    · rename_i x hx
      cases h
      exact hv _ (mget_mem hx)
    · split at h
      · rename_i x hx
        cases h
        exact hv _ (mget_mem hx)
      · cases h

theorem tr_pickAndVerify {f : Found} (hf : ∃ head area cd rec, ApkLayout file head area cd rec ∧ f = layoutFound head area cd rec)
    {blocks : List (Nat × Bytes)} {mn m : Int} {r : Core} {v3 : Option Core} (hb : ValsIn file blocks)
    (hx : ValsIn file r.extraBlocks) : Tr (HasMisfit env file) (fun x => x.1.extraBlocks = r.extraBlocks)
      (pickAndVerify env file f blocks mn m r v3) := by
  unfold pickAndVerify
  split
  · exact rfl
  · split
    · exact rfl
    · rename_i s b hp
      exact tr_verifyScheme hf (r := { r with schemeId := s.id }) (pickScheme_mem hp hb) hx

theorem tr_withFallback {f : Found} (hf : ∃ head area cd rec, ApkLayout file head area cd rec ∧ f = layoutFound head area cd rec)
    {blocks : List (Nat × Bytes)} {mn m : Int} {res : Core × Option Core × Digests} (hb : ValsIn file blocks)
    (hx : ValsIn file res.1.extraBlocks) : Tr (HasMisfit env file) (fun _ => True) (withFallback env file f blocks mn m res) := by
  obtain ⟨r, v3, cd⟩ := res
  unfold withFallback
  simp only
  split
  · refine (tr_pickAndVerify hf ?_ ?_).mono (fun _ _ => trivial)
    · intro p hp
      exact hb p (List.mem_filter.1 hp).1
    · simp only
      split
      · rename_i b hg
        exact ValsIn.mset hx (hb _ (mget_mem hg))
      · exact hx
  · trivial

/-! ## The stamp -/

/-- Signature records of a stamp: supported algorithms, bytes from `rest`. -/
def SigsIn (rest : Bytes) (m : List (Nat × Bytes)) : Prop :=
  ∀ p ∈ m, isSupportedAlgo p.1 = true ∧ (leBytes 4 p.1 ++ lp p.2) <:+: rest

theorem tr_stampSigStep {B : Prop} {rest : Bytes} {st : StampRes × List (Nat × Bytes)} {rec : Bytes} (hs : SigsIn rest st.2)
    (hr : rec <:+: rest) : Tr B (fun x => SigsIn rest x.1.2) (stampSigStep st rec) := by
  obtain ⟨r, m⟩ := st
  unfold stampSigStep
  simp only
  cases h : rdU32 rec with
  | none => exact hs
  | some x =>
    obtain ⟨algo, t⟩ := x
    simp only
    split
    · exact hs
    · rename_i hsup
      simp only [Bool.not_eq_true', Bool.not_eq_false] at hsup
      cases h1 : rdLP t with
      | error e => exact hs
      | ok y =>
        obtain ⟨s, t'⟩ := y
        intro p hp
        rcases mem_mset hp with rfl | hp
        · refine ⟨hsup, List.IsInfix.trans ?_ hr⟩
          obtain ⟨_, rfl⟩ := rdU32_some.1 h
          obtain ⟨_, rfl⟩ := rdLP_ok h1
          exact ⟨[], t', by simp⟩
        · exact hs p hp

theorem filterStep_ok {rest : Bytes} {m : Int} {st : Candidates × Int} {p : Nat × Bytes}
    (hs : SigsIn rest (st.1.map (·.2))) (hp : isSupportedAlgo p.1 = true ∧ (leBytes 4 p.1 ++ lp p.2) <:+: rest) :
    ∃ st', filterStep m st p = .ok st' ∧ SigsIn rest (st'.1.map (·.2)) := by
  obtain ⟨cands, mv⟩ := st
  have hset : SigsIn rest ((mset cands (getMinSdkVersionJca p.1) p).map (·.2)) := by
    intro q hq
    obtain ⟨c, hc, rfl⟩ := List.mem_map.1 hq
    rcases mem_mset hc with rfl | hc
    · exact hp
    · exact hs _ (List.mem_map.2 ⟨c, hc, rfl⟩)
  unfold filterStep
  simp only
  split
  · exact ⟨_, rfl, hs⟩
  · cases hg : mget cands (getMinSdkVersionJca p.1) with
    | none => exact ⟨_, rfl, hset⟩
    | some c =>
      obtain ⟨k, hk⟩ := compareAlgos_supported hp.1 (hs c (List.mem_map.2 ⟨_, mget_mem hg, rfl⟩)).1
      simp only [hk, bind, Except.bind]
      split
      · exact ⟨_, rfl, hset⟩
      · exact ⟨_, rfl, hs⟩

theorem filterFold_ok {rest : Bytes} {m : Int} (l : List (Nat × Bytes)) : ∀ {st : Candidates × Int},
    SigsIn rest (st.1.map (·.2)) → SigsIn rest l →
    ∃ st', l.foldlM (filterStep m) st = .ok st' ∧ SigsIn rest (st'.1.map (·.2)) := by
  induction l with
  | nil => intro st hs _; exact ⟨st, rfl, hs⟩
  | cons p l ih =>
    intro st hs hl
    obtain ⟨st', h1, h2⟩ := filterStep_ok (m := m) hs (hl p (by simp))
    obtain ⟨st'', h3, h4⟩ := ih h2 (fun q hq => hl q (List.mem_cons_of_mem _ hq))
    refine ⟨st'', ?_, h4⟩
    rw [List.foldlM_cons, h1]
    exact h3

theorem filterSignatures_ok {rest : Bytes} {mn m : Int} {l : List (Nat × Bytes)} (hl : SigsIn rest l) :
    ∃ x, filterSignatures mn m l = .ok x ∧ ∀ v, x = .ok v → SigsIn rest v := by
  obtain ⟨st, h1, h2⟩ := filterFold_ok (m := m) l (st := ([], maxInt32)) (by intro q hq; cases hq) hl
  unfold filterSignatures
  rw [h1]
  obtain ⟨cands, mv⟩ := st
  simp only [bind, Except.bind]
  split
  · exact ⟨_, rfl, by intro v h; cases h⟩
  · exact ⟨_, rfl, by intro v h; cases h; exact h2⟩

theorem tr_stampVerifyAll {enc rest : Bytes} {c : Cert} {data : Bytes} (hf : (lp enc ++ rest) <:+: file)
    (hc : env.parseCertAndr enc = some c) (l : List (Nat × Bytes)) : SigsIn rest l →
    Tr (HasMisfit env file) (fun _ => True) (stampVerifyAll env c data l) := by
  induction l with
  | nil => intro _; trivial
  | cons p l ih =>
    intro hl
    obtain ⟨a, s⟩ := p
    unfold stampVerifyAll
    refine Tr.bind (tr_verifySignature (.stamp hf hc (hl (a, s) (by simp)).2)) ?_
    intro o _
    cases o with
    | some e => trivial
    | none => exact ih (fun q hq => hl q (List.mem_cons_of_mem _ hq))

theorem tr_stampVerifySignature {enc rest : Bytes} {c : Cert} {data sigs : Bytes} {mn m : Int} {r : StampRes}
    (hf : (lp enc ++ rest) <:+: file) (hc : env.parseCertAndr enc = some c) (hs : sigs <:+: rest) :
    Tr (HasMisfit env file) (fun _ => True) (stampVerifySignature env mn m data c sigs r) := by
  unfold stampVerifySignature
  refine Tr.bind (Tr.foldGo (I := fun s : StampRes × List (Nat × Bytes) => SigsIn rest s.2) (lpSplit sigs).1 (r, [])
    (by intro p hp; cases hp) (fun s a hi ha => tr_stampSigStep hi ((lpSplit_infix ha).trans hs))) ?_
  rintro ⟨⟨r', sup⟩, d⟩ hi
  simp only at hi ⊢
  split
  · trivial
  · split
    · trivial
    · split
      · trivial
      · have hi' : SigsIn rest (env.mapOrder sup) := fun p hp => hi p ((env.mapOrder_perm sup).mem_iff.1 hp)
        obtain ⟨x, h1, h2⟩ := filterSignatures_ok (mn := mn) (m := m) hi'
        rw [h1]
        simp only [bind, Except.bind]
        cases x with
        | error e => trivial
        | ok tv =>
          simp only
          have hv := tr_stampVerifyAll (data := data) hf hc (env.mapOrder tv)
            (fun p hp => h2 tv rfl p ((env.mapOrder_perm tv).mem_iff.1 hp))
          cases hva : stampVerifyAll env c data (env.mapOrder tv) with
          | error q => rw [hva] at hv; exact hv
          | ok o => cases o <;> trivial

theorem tr_stampLineage {b : Bytes} (hb : b <:+: file) : Tr (HasMisfit env file) (fun _ => True) (stampLineage env b) := by
  unfold stampLineage
  cases h : rdU32 b with
  | none => trivial
  | some x =>
    obtain ⟨v, rest⟩ := x
    simp only
    split
    · trivial
    · refine Tr.bind (tr_lineageLoop (Or.inl rfl) _ (by intro n hn; cases hn)
        (fun x hx => (lpSplit_infix hx).trans ((rdU32_infix h).trans hb))) ?_
      intro x _
      cases x with
      | error e => trivial
      | ok ns => simp only; split <;> trivial

theorem tr_stampAttrStep {c : Cert} {r : StampRes} {a : Bytes} (ha : a <:+: file) :
    Tr (HasMisfit env file) (fun _ => True) (stampAttrStep env c r a) := by
  unfold stampAttrStep
  cases h : rdU32 a with
  | none => trivial
  | some x =>
    obtain ⟨id, rest⟩ := x
    simp only
    split
    · refine Tr.bind (tr_stampLineage ((rdU32_infix h).trans ha)) ?_
      intro x _
      cases x with
      | error e => trivial
      | ok ns =>
        simp only
        repeat' (first | trivial | split)
    · repeat' (first | trivial | split)

theorem tr_stampAttributes {c : Cert} {r : StampRes} {d : Bytes} (hd : d <:+: file) :
    Tr (HasMisfit env file) (fun _ => True) (stampAttributes env c d r) := by
  unfold stampAttributes
  cases h : rdLP d with
  | error e => trivial
  | ok x =>
    obtain ⟨attrs, t⟩ := x
    simp only
    refine Tr.bind (Tr.foldGo (I := fun _ => True) (lpSplit attrs).1 _ trivial
      (fun _ _ _ ha => (tr_stampAttrStep ((lpSplit_infix ha).trans ((rdLP_infix h).1.trans hd))).mono (fun _ _ => trivial))) ?_
    rintro ⟨st, dn⟩ _
    simp only
    repeat' (first | trivial | split)

theorem stampSchemes_infix {rest : Bytes} {n : Int} (bs : List Bytes) : ∀ {o : Option Bytes} {x : Bytes},
    (∀ y, o = some y → y <:+: rest) → (∀ b ∈ bs, b <:+: rest) → stampSchemes n o bs = .ok (some x) → x <:+: rest := by
  induction bs with
  | nil => intro o x ho _ h; simp only [stampSchemes, Except.ok.injEq] at h; exact ho x h
  | cons b bs ih =>
    intro o x ho hb h
    simp only [stampSchemes] at h
    cases hst : stampSchemeStep n o b with
    | error e => rw [hst] at h; cases h
    | ok o' =>
      rw [hst] at h
      refine ih ?_ (fun y hy => hb y (List.mem_cons_of_mem _ hy)) h
      intro y hy
      unfold stampSchemeStep at hst
      cases h1 : rdU32 b with
      | none => rw [h1] at hst; cases hst
      | some z =>
        obtain ⟨id, t⟩ := z
        rw [h1] at hst
        simp only at hst
        cases h2 : rdLP t with
        | error e => rw [h2] at hst; cases hst
        | ok w =>
          obtain ⟨sg, t'⟩ := w
          rw [h2] at hst
          simp only [Except.ok.injEq] at hst
          rw [← hst] at hy
          split at hy
          · cases hy
            exact (rdLP_infix h2).1.trans ((rdU32_infix h1).trans (hb b (by simp)))
          · exact ho y hy

theorem tr_stampCheckSignatures {enc rest : Bytes} {c : Cert} {sid : Nat} {mn m : Int} {cd : Digests} {r : StampRes}
    (hf : (lp enc ++ rest) <:+: file) (hc : env.parseCertAndr enc = some c) :
    Tr (HasMisfit env file) (fun _ => True) (stampCheckSignatures env sid mn m rest c cd r) := by
  unfold stampCheckSignatures
  have hrest : rest <:+: file := (List.suffix_append _ _).isInfix.trans hf
  cases h1 : rdLP rest with
  | error e => trivial
  | ok x =>
    obtain ⟨schemes, t⟩ := x
    simp only
    cases h2 : stampSchemes (if sid = 31 then 3 else (sid : Int)) none (lpSplit schemes).1 with
    | error e => trivial
    | ok found =>
      simp only
      split
      · trivial
      · cases found with
        | none => trivial
        | some sigs =>
          simp only
          have hs : sigs <:+: rest := stampSchemes_infix _ (by intro y hy; cases hy)
            (fun b hb => (lpSplit_infix hb).trans (rdLP_infix h1).1) h2
          refine Tr.bind (tr_stampVerifySignature hf hc hs) ?_
          rintro ⟨r1, ok⟩ _
          simp only
          split
          · trivial
          · split
            · trivial
            · cases h3 : rdLP t with
              | error e => trivial
              | ok x =>
                obtain ⟨ad, t2⟩ := x
                simp only
                cases h4 : rdLP t2 with
                | error e => trivial
                | ok x =>
                  obtain ⟨as, t3⟩ := x
                  simp only
                  refine Tr.bind (tr_stampVerifySignature hf hc
                    ((rdLP_infix h4).1.trans ((rdLP_infix h3).2.trans (rdLP_infix h1).2))) ?_
                  rintro ⟨r2, ok⟩ _
                  simp only
                  split
                  · trivial
                  · exact tr_stampAttributes ((rdLP_infix h3).1.trans ((rdLP_infix h1).2.trans hrest))

theorem tr_verifyStamp {zip : Zip} {sid : Nat} {mn m : Int} {b : Option Bytes} {cd : Digests} (hb : ∀ x, b = some x → x <:+: file) :
    Tr (HasMisfit env file) (fun _ => True) (verifyStamp env zip sid mn m b cd) := by
  unfold verifyStamp
  cases b with
  | none => simp only; split <;> trivial
  | some block =>
    simp only
    cases h1 : rdLP block with
    | error e => trivial
    | ok x =>
      obtain ⟨sb, t⟩ := x
      simp only
      cases h2 : rdLP sb with
      | error e => trivial
      | ok x =>
        obtain ⟨enc, rest⟩ := x
        simp only
        cases hc : env.parseCertAndr enc with
        | none => trivial
        | some cert =>
          simp only
          have hf : (lp enc ++ rest) <:+: file := by
            obtain ⟨_, he⟩ := rdLP_ok h2
            rw [← he]
            exact (rdLP_infix h1).1.trans (hb block rfl)
          cases hz : zip.file stampEntryName with
          | none => trivial
          | some entry =>
            simp only
            split
            · trivial
            · split
              · trivial
              · split
                · trivial
                · exact Tr.bind (tr_stampCheckSignatures hf hc) (fun _ _ => trivial)

theorem tr_verifySigningBlock {zip : Zip} {mn m : Int} :
    Tr (HasMisfit env file ∨ HasNegativeIndex file) (fun _ => True) (verifySigningBlock env zip file mn m) := by
  unfold verifySigningBlock
  split
  · trivial
  · simp only
    have h0 := tr_findSignatureBlocks (env := env) (file := file) (m := m)
    cases hE : findSignatureBlocks env file m with
    | error q => rw [hE] at h0; exact Or.inr h0
    | ok x =>
      rw [hE] at h0
      obtain ⟨f, st, e⟩ := x
      obtain ⟨⟨hb, hx⟩, hf⟩ := h0
      cases f with
      | none => trivial
      | some f =>
        cases e with
        | some e => trivial
        | none =>
          simp only
          refine Tr.weaken ?_ Or.inl
          have hf' := hf f rfl
          refine Tr.bind (tr_pickAndVerify hf' hb hx) ?_
          intro res hres
          refine Tr.bind (tr_withFallback hf' hb (by rw [hres]; exact hx)) ?_
          rintro ⟨r, v3, cd⟩ _
          simp only
          refine Tr.bind (tr_verifyStamp (fun y hy => hb _ (mget_mem hy))) ?_
          intro s _
          trivial

theorem tr_extractCertsReader {m : Int} :
    Tr (HasMisfit env file ∨ HasNegativeIndex file) (fun _ => True) (extractCertsReader env file m) := by
  unfold extractCertsReader
  split
  · trivial
  · have h0 := tr_findSignatureBlocks (env := env) (file := file) (m := m)
    cases hE : findSignatureBlocks env file m with
    | error q => rw [hE] at h0; exact Or.inr h0
    | ok x =>
      rw [hE] at h0
      obtain ⟨f, st, e⟩ := x
      obtain ⟨⟨hb, hx⟩, hf⟩ := h0
      cases e with
      | some e => trivial
      | none =>
        simp only
        split
        · trivial
        · rename_i s b hp
          refine Tr.weaken ?_ Or.inl
          refine Tr.bind (tr_extractCerts (pickScheme_mem hp hb) hx) ?_
          rintro ⟨r, _, _, _⟩ _
          trivial

end
end Apk
