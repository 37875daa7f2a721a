import Verif.Proofs.Trace
/-! # The not-found error is reported only when there is no block to verify -/
namespace Apk
set_option linter.unusedSimpArgs false

/-- No recorded error is of the not-found kind, and no recorded chain is empty. -/
def Core.NF (r : Core) : Prop := (∀ e ∈ r.errors, isNotFound (some e) = false) ∧ ∀ ch ∈ r.certs, ch ≠ []

theorem Core.NF.empty {r : Core} (he : r.errors = []) (hc : r.certs = []) : r.NF :=
  ⟨(by rw [he]; intro e h; cases h), (by rw [hc]; intro e h; cases h)⟩

/-- Every normal result satisfies the predicate. -/
def Post {α : Type} (P : α → Prop) (x : Go α) : Prop := ∀ v, x = .ok v → P v

theorem Post.ok {α : Type} {P : α → Prop} {v : α} (h : P v) : Post P (.ok v) := by
  intro w hw; cases hw; exact h
theorem Post.error {α : Type} {P : α → Prop} {p : Panic} : Post P (.error p : Go α) := by
  intro w hw; cases hw
theorem Post.bind {α β : Type} {P : α → Prop} {Q : β → Prop} {x : Go α} {f : α → Go β} (hx : Post P x)
    (hf : ∀ v, P v → Post Q (f v)) : Post Q (x >>= f) := by
  cases x with
  | error p => exact Post.error
  | ok v => exact hf v (hx v rfl)
theorem Post.true {α : Type} (x : Go α) : Post (fun _ => True) x := fun _ _ => trivial

theorem post_foldGo {σ α : Type} {P : σ → Prop} {step : σ → α → Go (σ × Bool)} (h : ∀ s a, P s → Post (fun v => P v.1) (step s a)) :
    ∀ (as : List α) (s : σ), P s → Post (fun v => P v.1) (foldGo step s as) := by
  intro as
  induction as with
  | nil => intro s hs; exact Post.ok hs
  | cons a as ih =>
    intro s hs
    unfold foldGo
    refine Post.bind (h s a hs) ?_
    rintro ⟨s', c⟩ hs'
    simp only
    split
    · exact ih s' hs'
    · exact Post.ok hs'

theorem Core.NF.add {r : Core} (h : r.NF) {e : E} (he : isNotFound (some e) = false) : (r.addError e).NF := by
  refine ⟨?_, h.2⟩
  intro x hx
  unfold Core.addError at hx
  rcases List.mem_append.1 hx with hx | hx
  · exact h.1 x hx
  · rw [List.mem_singleton.1 hx]; exact he
theorem Core.NF.warn {r : Core} (h : r.NF) {w : W} : (r.addWarning w).NF := h
theorem Core.NF.app {r : Core} (h : r.NF) {es : List E} (he : ∀ e ∈ es, isNotFound (some e) = false) {lin : Option Lineage} :
    Core.NF { r with errors := r.errors ++ es, lineage := lin } := by
  refine ⟨?_, h.2⟩
  intro x hx
  rcases List.mem_append.1 hx with hx | hx
  · exact h.1 x hx
  · exact he x hx

theorem nf_parseSignatures (sigs : Bytes) {r : Core} (h : r.NF) : Post (fun v => v.1.NF) (parseSignatures sigs r) := by
  unfold parseSignatures
  simp only
  refine Post.bind (post_foldGo (P := fun s : Core × SigCtx => s.1.NF) ?_ _ _ h) ?_
  · rintro ⟨r, ctx⟩ rec hr
    unfold sigStep
    simp only
    split
    · exact Post.ok (hr.add rfl)
    split
    · exact Post.ok hr
    have hb : ∀ b : Bool, Post (fun v : (Core × SigCtx) × Bool => v.1.1.NF) (if b = true then
          match rdLP (rec.drop 4) with
          | .error e => .ok ((r.addError (.sigBytesRead e), { ctx with algos := ctx.algos ++ [leNat (rec.take 4)] }), false)
          | .ok (s, _) => .ok ((r, { best := some (leNat (rec.take 4), s), algos := ctx.algos ++ [leNat (rec.take 4)] }), true)
        else .ok ((r, { ctx with algos := ctx.algos ++ [leNat (rec.take 4)] }), true)) := by
      intro b
      split
      · split
        · exact Post.ok (hr.add rfl)
        · exact Post.ok hr
      · exact Post.ok hr
    split
    · exact hb true
    · refine Post.bind (Post.true _) (fun c _ => ?_)
      exact hb _
  · rintro ⟨⟨r, ctx⟩, done⟩ hr
    simp only
    split
    · exact Post.ok hr
    split
    · exact Post.ok (Core.NF.add hr rfl)
    split
    · refine Post.ok (Core.NF.add hr ?_)
      split <;> rfl
    · exact Post.ok hr

theorem nf_parsePublicKey (env : Env) (pk : Bytes) (best : Nat × Bytes) (sd : Bytes) {r : Core} (h : r.NF) :
    Post (fun v => v.1.NF) (parsePublicKey env pk best sd r) := by
  unfold parsePublicKey
  split
  · exact Post.ok (h.add rfl)
  · refine Post.bind (Post.true _) ?_
    intro o _
    split
    · exact Post.ok (h.add rfl)
    · exact Post.ok h

theorem nf_certLoop (env : Env) (items : List Bytes) : ∀ {r : Core} (adder : List Cert), r.NF → (certLoop env r adder items).1.NF := by
  induction items with
  | nil => intro r a h; exact h
  | cons c cs ih =>
    intro r a h
    unfold certLoop
    split
    · exact h.add rfl
    · refine ih _ ⟨h.1, ?_⟩
      intro ch hch
      rename_i cert _
      have hch : ch ∈ (certAppend a r.certs cert).2 := hch
      by_cases hl : (a ++ [cert]).length = 1
      · simp only [certAppend, if_pos hl] at hch
        rcases List.mem_append.1 hch with hch | hch
        · exact h.2 ch hch
        · rw [List.mem_singleton.1 hch]; simp
      · simp only [certAppend, if_neg hl] at hch
        rcases List.mem_append.1 hch with hch | hch
        · exact h.2 ch (List.dropLast_subset _ hch)
        · rw [List.mem_singleton.1 hch]; simp

theorem nf_parseCertificates (env : Env) (certs pk : Bytes) {r : Core} (h : r.NF) : (parseCertificates env certs pk r).1.NF := by
  unfold parseCertificates
  simp only
  have := nf_certLoop env (lpSplit certs).1 [] h
  split
  · exact this
  split
  · exact this.add rfl
  split
  · exact this.add rfl
  split
  · exact this.add rfl
  · exact this

theorem nf_parseDigests (digests : Bytes) (best : Nat) (algos : List Nat) (cd : Digests) {r : Core} (h : r.NF) :
    Post (fun v => v.1.NF) (parseDigests digests best algos cd r) := by
  unfold parseDigests
  simp only
  refine Post.bind (post_foldGo (P := fun s : Core × List Nat × Bytes => s.1.NF) ?_ _ _ h) ?_
  · rintro ⟨r, al, d⟩ rec hr
    unfold digestStep
    simp only
    split
    · exact Post.ok (hr.add rfl)
    split
    · split
      · exact Post.ok (hr.add rfl)
      · exact Post.ok hr
    · exact Post.ok hr
  · rintro ⟨⟨r, al, d⟩, done⟩ hr
    simp only
    split
    · exact Post.ok hr
    split
    · exact Post.ok (Core.NF.add hr rfl)
    split
    · exact Post.ok (Core.NF.add hr rfl)
    · refine Post.bind (Post.true _) ?_
      intro t _
      split
      · split
        · exact Post.ok (Core.NF.add hr rfl)
        · exact Post.ok hr
      · exact Post.ok hr

theorem nf_v2VerifySigner (env : Env) (maxSdk : Int) (signer : Bytes) (cd : Digests) {r : Core} (h : r.NF) :
    Post (fun v => v.1.NF) (v2VerifySigner env maxSdk signer cd r) := by
  unfold v2VerifySigner
  split
  · exact Post.ok (h.add rfl)
  split
  · exact Post.ok (h.add rfl)
  refine Post.bind (nf_parseSignatures _ h) ?_
  rintro ⟨r, ctx, ok⟩ hr
  simp only
  split
  · split
    · exact Post.ok (Core.NF.add hr rfl)
    refine Post.bind (nf_parsePublicKey _ _ _ _ hr) ?_
    rintro ⟨r, ok⟩ hr
    simp only
    split
    · exact Post.ok hr
    split
    · exact Post.ok (Core.NF.add hr rfl)
    split
    · exact Post.ok (Core.NF.add hr rfl)
    rename_i hb2 _ _ _ _ _ _ _ _ certs _ _
    have hc := nf_parseCertificates env certs hb2 hr
    split
    · exact Post.ok hc
    refine Post.bind (nf_parseDigests _ _ _ _ hc) ?_
    rintro ⟨r, cd, ok⟩ hr
    simp only
    split
    · exact Post.ok hr
    split
    · exact Post.ok (Core.NF.add hr rfl)
    refine Post.bind (post_foldGo (P := Core.NF) ?_ _ _ hr) ?_
    · intro r a hr
      unfold v2AttrStep
      split
      · exact Post.ok (hr.add rfl)
      split
      · split
        · exact Post.ok hr
        split
        · exact Post.ok (hr.add rfl)
        split
        · exact Post.ok (hr.add rfl)
        split
        · exact Post.ok (hr.add rfl)
        · exact Post.ok hr
      · exact Post.ok hr.warn
    · rintro ⟨r, done⟩ hr
      simp only
      split
      · exact Post.ok hr
      split
      · exact Post.ok (Core.NF.add hr rfl)
      · exact Post.ok hr
  · exact Post.ok hr

theorem nf_v2Signers (env : Env) (maxSdk : Int) (l : List Bytes) : ∀ (cd : Digests) {r : Core}, r.NF →
    Post (fun v => v.1.NF) (v2Signers env maxSdk l cd r) := by
  induction l with
  | nil => intro cd r h; exact Post.ok h
  | cons s ss ih =>
    intro cd r h
    unfold v2Signers
    refine Post.bind (nf_v2VerifySigner _ _ _ _ h) ?_
    rintro ⟨r, cd⟩ hr
    exact ih _ hr

theorem nf_v2ParseSigners (env : Env) (maxSdk : Int) (block : Bytes) (cd : Digests) {r : Core} (h : r.NF) :
    Post (fun v => v.1.NF) (v2ParseSigners env maxSdk block cd r) := by
  unfold v2ParseSigners
  split
  · exact Post.ok (h.add rfl)
  refine Post.bind (nf_v2Signers _ _ _ _ h) ?_
  rintro ⟨r, cd⟩ hr
  simp only
  split
  · exact Post.ok (Core.NF.add hr rfl)
  split
  · exact Post.ok (Core.NF.add hr rfl)
  · exact Post.ok hr

theorem nf_v3Attrs (env : Env) (p : V3Params) (main : Cert) (d : Bytes) {r : Core} (h : r.NF) :
    Post (fun v => v.1.NF) (v3Attrs env p main d r) := by
  unfold v3Attrs
  split
  · exact Post.ok (h.add rfl)
  refine Post.bind (post_foldGo (P := fun s : AttrSt => s.r.NF) ?_ _ _ h) ?_
  · intro st a hr
    unfold v3AttrStep
    split
    · exact Post.ok (hr.add rfl)
    split
    · refine Post.bind (Post.true _) (fun x _ => ?_)
      split
      · exact Post.ok (hr.add rfl)
      split
      · exact Post.ok hr
      simp only
      split
      · exact Post.ok (hr.add rfl)
      split
      · exact Post.ok (hr.add rfl)
      · exact Post.ok hr
    split
    · simp only
      split
      · split
        · exact Post.ok (hr.add rfl)
        split
        · split
          · exact Post.ok (hr.add rfl)
          · exact Post.ok hr
        · exact Post.ok (hr.add rfl)
      · exact Post.ok hr.warn
    split
    · split
      · exact Post.ok hr.warn
      · exact Post.ok hr
    · exact Post.ok hr.warn
  · rintro ⟨st, done⟩ hr
    simp only
    split
    · exact Post.ok hr
    split
    · exact Post.ok (Core.NF.add hr rfl)
    split
    · exact Post.ok (Core.NF.warn hr)
    · exact Post.ok hr

theorem nf_v3SignerTail (env : Env) (p : V3Params) (certs digests pk : Bytes) (best : Nat) (algos : List Nat) (d4 : Bytes)
    (cd : Digests) {r : Core} (h : r.NF) : Post (fun v => v.1.NF) (v3SignerTail env p certs digests pk best algos d4 cd r) := by
  unfold v3SignerTail
  have hc := nf_parseCertificates env certs pk h
  simp only
  split
  · exact Post.ok hc
  refine Post.bind (nf_parseDigests _ _ _ _ hc) ?_
  rintro ⟨r, cd, ok⟩ hr
  simp only
  split
  · exact Post.ok hr
  refine Post.bind (nf_v3Attrs _ _ _ _ hr) ?_
  rintro ⟨r, lin⟩ hr
  exact Post.ok hr

theorem nf_v3SignerBody (env : Env) (p : V3Params) (sd b1 : Bytes) (minSdk : Int) (cd : Digests) {r : Core} (h : r.NF) :
    Post (fun v => v.1.NF) (v3SignerBody env p sd b1 minSdk cd r) := by
  unfold v3SignerBody
  split
  · exact Post.ok (h.add rfl)
  refine Post.bind (nf_parseSignatures _ h) ?_
  rintro ⟨r, ctx, ok⟩ hr
  simp only
  split
  · split
    · exact Post.ok (Core.NF.add hr rfl)
    refine Post.bind (nf_parsePublicKey _ _ _ _ hr) ?_
    rintro ⟨r, ok⟩ hr
    simp only
    split
    · exact Post.ok hr
    split
    · exact Post.ok (Core.NF.add hr rfl)
    split
    · exact Post.ok (Core.NF.add hr rfl)
    split
    · exact Post.ok (Core.NF.add hr rfl)
    split
    · exact Post.ok (Core.NF.add hr rfl)
    apply nf_v3SignerTail
    split
    · exact Core.NF.add hr rfl
    · exact hr
  · exact Post.ok hr

theorem nf_v3VerifySigner (env : Env) (p : V3Params) (signer : Bytes) (cd : Digests) {r : Core} (h : r.NF) :
    Post (fun v => v.1.NF) (v3VerifySigner env p signer cd r) := by
  unfold v3VerifySigner
  split
  · exact Post.ok (h.add rfl)
  split
  · exact Post.ok (h.add rfl)
  split
  · exact Post.ok (h.add rfl)
  refine Post.bind (nf_v3SignerBody _ _ _ _ _ _ ?_) ?_
  · split
    · exact h.add rfl
    · exact h
  rintro ⟨r, cd, lin⟩ hr
  exact Post.ok hr

theorem nf_v3Signers (env : Env) (p : V3Params) (l : List Bytes) : ∀ (cd : Digests) {r : Core} (acc : List SignerInfo), r.NF →
    Post (fun v => v.1.NF) (v3Signers env p l cd r acc) := by
  induction l with
  | nil => intro cd r acc h; exact Post.ok h
  | cons s ss ih =>
    intro cd r acc h
    unfold v3Signers
    refine Post.bind (nf_v3VerifySigner _ _ _ _ h) ?_
    rintro ⟨r, cd, i⟩ hr
    exact ih _ _ hr

theorem nf_v3ParseSigners (env : Env) (p : V3Params) (block : Bytes) (cd : Digests) {r : Core} (h : r.NF) :
    Post (fun v => v.1.NF) (v3ParseSigners env p block cd r) := by
  unfold v3ParseSigners
  split
  · exact Post.ok (h.add rfl)
  refine Post.bind (nf_v3Signers _ _ _ _ _ h) ?_
  rintro ⟨r, cd, i⟩ hr
  simp only
  split
  · exact Post.ok (Core.NF.add hr rfl)
  · exact Post.ok hr

theorem finLoop_error (l : List SignerInfo) : ∀ st, (∀ e, st.error = some e → isNotFound (some e) = false) →
    ∀ e, (finLoop st l).error = some e → isNotFound (some e) = false := by
  induction l with
  | nil => intro st h; exact h
  | cons s ss ih =>
    intro st h
    unfold finLoop
    split
    · intro e he; cases he; rfl
    simp only
    split
    · exact ih _ h
    · split
      · intro e he; cases he; rfl
      · exact ih _ h

theorem consolidate_error {l : List Lineage} {e : E} (h : consolidateLineages l = .error e) : isNotFound (some e) = false := by
  unfold consolidateLineages at h
  split at h
  · cases h
  · simp only at h
    split at h
    · cases h
    · cases h; rfl

theorem nf_finish {r1 : Core} (h1 : r1.NF) {l : List Lineage} (c : Prop) [Decidable c] :
    Core.NF (match (if c then r1.addError .missingSdk else r1).lineage with
      | some _ => (if c then r1.addError .missingSdk else r1)
      | none =>
        match consolidateLineages l with
        | .error e => (if c then r1.addError .missingSdk else r1).addError e
        | .ok l => { (if c then r1.addError .missingSdk else r1) with lineage := l }) := by
  have h2 : Core.NF (if c then r1.addError .missingSdk else r1) := by
    split
    · exact h1.add rfl
    · exact h1
  split
  · exact h2
  split
  · rename_i e he
    exact h2.add (consolidate_error he)
  · exact h2

theorem nf_v3Finalize (acting : Bool) (rot a b : Int) (s : List SignerInfo) {r : Core} (h : r.NF) : (v3Finalize acting rot a b s r).NF := by
  unfold v3Finalize v3FinalizeSorted
  have h0 := finLoop_error (sortSigners s) {} (by intro e he; cases he)
  cases hE : (finLoop {} (sortSigners s)).error with
  | none => simp only [hE]; exact nf_finish h _
  | some e => simp only [hE]; exact nf_finish (h.add (h0 e hE)) _

theorem nf_v31ParseSigners (env : Env) (maxSdk : Int) (block : Bytes) (cd : Digests) {r : Core} {v3 : Option Core} (h : r.NF)
    (h3 : ∀ q, v3 = some q → q.NF) :
    Post (fun v => v.1.NF ∧ ∀ q, v.2.1 = some q → q.NF) (v31ParseSigners env maxSdk block cd r v3) := by
  unfold v31ParseSigners
  refine Post.bind (nf_v3ParseSigners _ _ _ _ h) ?_
  rintro ⟨r, cd31, s⟩ hr
  simp only
  split
  · exact Post.ok ⟨Core.NF.add hr rfl, h3⟩
  · refine Post.bind (nf_v3ParseSigners _ _ _ _ (Core.NF.empty rfl rfl)) ?_
    rintro ⟨q, cd, s⟩ hq
    exact Post.ok ⟨hr, (fun x hx => by cases hx; exact hq)⟩

theorem nf_verifyIntegrity (env : Env) (file : Bytes) (f : Found) (ex : Digests) {r : Core} (h : r.NF) :
    Post (fun v => v.1.NF) (verifyIntegrity env file f ex r) := by
  unfold verifyIntegrity
  refine Post.bind (Post.true _) (fun x _ => ?_)
  split
  · exact Post.ok (h.add rfl)
  · refine Post.ok ⟨?_, h.2⟩
    intro e he
    rcases List.mem_append.1 he with he | he
    · exact h.1 e he
    · obtain ⟨p, _, rfl⟩ := List.mem_map.1 he
      rfl

theorem nf_extractCerts (env : Env) (sch : Scheme) (maxSdk : Int) (block : Bytes) {r : Core} {v3 : Option Core} (h : r.NF)
    (h3 : ∀ q, v3 = some q → q.NF) : Post (fun v => v.1.NF ∧ ∀ q, v.2.1 = some q → q.NF) (extractCerts env sch maxSdk block r v3) := by
  unfold extractCerts
  cases sch with
  | v2 =>
    refine Post.bind (nf_v2ParseSigners _ _ _ _ h) ?_
    rintro ⟨r, cd⟩ hr
    exact Post.ok ⟨hr, h3⟩
  | v3 =>
    refine Post.bind (nf_v3ParseSigners _ _ _ _ h) ?_
    rintro ⟨r, cd⟩ hr
    exact Post.ok ⟨hr, h3⟩
  | v31 => exact nf_v31ParseSigners _ _ _ _ h h3

theorem nf_verifyScheme (env : Env) (file : Bytes) (f : Found) (sch : Scheme) (minSdk maxSdk : Int) (block : Bytes) {r : Core}
    {v3 : Option Core} (h : r.NF) (h3 : ∀ q, v3 = some q → q.NF) :
    Post (fun v => v.1.NF ∧ ∀ q, v.2.1 = some q → q.NF) (verifyScheme env file f sch minSdk maxSdk block r v3) := by
  unfold verifyScheme
  refine Post.bind (nf_extractCerts _ _ _ _ h h3) ?_
  rintro ⟨r, v3, cd, fin⟩ ⟨hr1, h3⟩
  simp only
  split
  · exact Post.ok ⟨Core.NF.add hr1 rfl, h3⟩
  split
  · exact Post.ok ⟨Core.NF.add hr1 rfl, h3⟩
  refine Post.bind (nf_verifyIntegrity _ _ _ _ hr1) ?_
  rintro ⟨r2, ok⟩ hr2
  simp only
  have hr : r2.NF := hr2
  split
  · exact Post.ok ⟨hr, h3⟩
  · refine Post.ok ?_
    cases sch with
    | v2 => exact ⟨hr, h3⟩
    | v3 => exact ⟨nf_v3Finalize _ _ _ _ _ hr, h3⟩
    | v31 =>
      simp only [finalizeScheme, v31Finalize]
      cases v3 with
      | none => exact ⟨nf_v3Finalize _ _ _ _ _ hr, (fun q hq => by cases hq)⟩
      | some w =>
        have hw := nf_v3Finalize false fin.rotationMin minSdk maxSdk fin.v3Signers (h3 w rfl)
        refine ⟨⟨?_, (nf_v3Finalize _ _ _ _ _ hr).2⟩, (fun q hq => by cases hq; exact hw)⟩
        intro e he
        rcases List.mem_append.1 he with he | he
        · exact (nf_v3Finalize _ _ _ _ _ hr).1 e he
        · exact hw.1 e he

theorem nf_pickAndVerify (env : Env) (file : Bytes) (f : Found) {blocks : List (Nat × Bytes)} (minSdk maxSdk : Int) {r : Core}
    {v3 : Option Core} (hp : pickScheme blocks ≠ none) (h : r.NF) (h3 : ∀ q, v3 = some q → q.NF) :
    Post (fun v => v.1.NF ∧ ∀ q, v.2.1 = some q → q.NF) (pickAndVerify env file f blocks minSdk maxSdk r v3) := by
  unfold pickAndVerify
  split
  · exact Post.ok ⟨h, h3⟩
  split
  · rename_i hn; exact absurd hn hp
  · exact nf_verifyScheme _ _ _ _ _ _ _ h h3

theorem nf_withFallback (env : Env) (file : Bytes) (f : Found) {blocks : List (Nat × Bytes)} (minSdk maxSdk : Int)
    {x : Core × Option Core × Digests} (h : x.1.NF) (h3 : ∀ q, x.2.1 = some q → q.NF) :
    Post (fun v => v.1.NF) (withFallback env file f blocks minSdk maxSdk x) := by
  obtain ⟨r, v3, cd⟩ := x
  unfold withFallback
  simp only
  split
  · rename_i hc
    refine fun v hv => (nf_pickAndVerify env file f minSdk maxSdk ?_ ?_ h3 v hv).1
    · have hne : blockIdSchemeV3 ≠ blockIdSchemeV2 := by decide
      unfold pickScheme
      obtain ⟨b, hb⟩ := Option.isSome_iff_exists.1 hc.2.2.2
      have : mget (mdel blocks blockIdSchemeV3) blockIdSchemeV2 = some b := by
        rw [mget_mdel, if_neg hne, hb]
      rw [this]
      split
      · simp
      · split
        · simp
        · simp
    · exact ⟨(by intro e he; cases he), h.2⟩
  · exact Post.ok h

/-- With a readable signing block that has a scheme the newest platform knows, the error is never of the not-found kind. -/
theorem found_not_notFound {env : Env} {zip : Zip} {file head area cd rec : Bytes} {minSdk maxSdk : Int} {out : Outcome}
    {ps : List (Nat × Bytes)} (hl : ApkLayout file head area cd rec) (ha : PairArea area ps) (hs : strongest ps maxSdk ≠ none)
    (h : verifySigningBlock env zip file minSdk maxSdk = .ok out) : isNotFound out.err = false := by
  rcases located_inv hl h with ⟨e, _, hn⟩ | ⟨ps', st, q, r, v3, dg, stamp, fr, ha', hpp, hm, hq, hw, _, hfr, hres, herr⟩
  · exact absurd ha (hn ps)
  cases pairArea_unique ha ha'
  have hp : pickScheme st.blocks ≠ none := by
    intro hn
    apply hs
    obtain ⟨h31, h3, h2⟩ := pick_none.1 hn
    exact strongest_none (hm.noV31.1 h31) (hm.noV3.1 h3) (fun h => by have := hm.b2; rw [if_pos h, h2] at this; exact this.symm)
  have h1 := nf_pickAndVerify env file (layoutFound head area cd rec) minSdk maxSdk hp
    (r := { extraBlocks := st.extra, warnings := st.warnings }) (v3 := none) (Core.NF.empty rfl rfl) (by intro q hq; cases hq) q hq
  have h2 := nf_withFallback env file (layoutFound head area cd rec) minSdk maxSdk h1.1 h1.2 _ hw
  rw [herr]
  unfold Core.lastError
  cases hg : r.errors.getLast? with
  | none => rfl
  | some e => exact h2.1 e (List.mem_of_getLast? hg)

/-- No reported chain is empty. -/
theorem reported_chains_nonempty {env : Env} {zip : Zip} {file : Bytes} {minSdk maxSdk : Int} {out : Outcome} {res : VRes}
    (h : verifySigningBlock env zip file minSdk maxSdk = .ok out) (hr : out.res = some res) : ∀ ch ∈ res.core.certs, ch ≠ [] := by
  unfold verifySigningBlock at h
  split at h
  · cases h; cases hr
  simp only at h
  split at h
  · cases h
  · cases h; cases hr; intro ch hch; cases hch
  · cases h; cases hr; intro ch hch; cases hch
  · rename_i f st _
    have key : Post (fun v : Core × Option Core × Digests => ∀ ch ∈ v.1.certs, ch ≠ [])
        (pickAndVerify env file f st.blocks minSdk maxSdk { extraBlocks := st.extra, warnings := st.warnings } none >>=
          withFallback env file f st.blocks minSdk maxSdk) := by
      by_cases hp : pickScheme st.blocks = none
      · refine Post.bind (P := fun v => v.1.certs = []) ?_ ?_
        · unfold pickAndVerify
          rw [hp]
          split
          · exact Post.ok rfl
          · exact Post.ok rfl
        · rintro ⟨r, v3, cd⟩ hc
          unfold withFallback
          simp only
          rw [if_neg]
          · refine Post.ok ?_
            simp only at hc
            intro ch hch
            simp only [hc] at hch
            cases hch
          · rintro ⟨_, _, _, h2⟩
            rw [(pick_none.1 hp).2.2] at h2
            cases h2
      · refine Post.bind (nf_pickAndVerify env file f minSdk maxSdk hp (Core.NF.empty rfl rfl) (by intro q hq; cases hq)) ?_
        rintro x ⟨h1, h2⟩ v hv
        exact (nf_withFallback env file f minSdk maxSdk h1 h2 v hv).2
    cases hpv : pickAndVerify env file f st.blocks minSdk maxSdk { extraBlocks := st.extra, warnings := st.warnings } none with
    | error p => rw [hpv] at h; cases h
    | ok x =>
      rw [hpv] at h key
      simp only [bind, Except.bind] at h key
      cases hw : withFallback env file f st.blocks minSdk maxSdk x with
      | error p => rw [hw] at h; cases h
      | ok y =>
        obtain ⟨r, v3, cd⟩ := y
        rw [hw] at h
        simp only at h
        split at h
        · cases h
        · cases h; cases hr
          exact key _ hw

/-- No extracted chain is empty. -/
theorem extracted_chains_nonempty {env : Env} {file : Bytes} {maxSdk : Int} {c : List (List Cert)} {e : Option E}
    (h : extractCertsReader env file maxSdk = .ok (c, e)) : ∀ ch ∈ c, ch ≠ [] := by
  unfold extractCertsReader at h
  split at h
  · cases h; intro ch hch; cases hch
  split at h
  · cases h
  · cases h; intro ch hch; cases hch
  · split at h
    · cases h; intro ch hch; cases hch
    · rename_i st _ _ scheme block _
      have key := nf_extractCerts env scheme maxSdk block (r := { schemeId := scheme.id, extraBlocks := st.extra, warnings := st.warnings })
        (v3 := none) (Core.NF.empty rfl rfl) (by intro q hq; cases hq)
      cases hx : extractCerts env scheme maxSdk block { schemeId := scheme.id, extraBlocks := st.extra, warnings := st.warnings } none with
      | error p => rw [hx] at h; cases h
      | ok y =>
        rw [hx] at h
        cases h
        exact (key y hx).1.2

end Apk
