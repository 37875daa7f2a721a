import Verif.Spec.Signer
import Verif.Model.Stamp
import Verif.Proofs.Base
/-! # Signatures, keys, certificates and digests of one signer -/
set_option linter.unusedSimpArgs false

namespace Apk

/-- `r'` extends `r` by errors, warnings and certificate chains only. -/
structure Core.Ext (r r' : Core) : Prop where
  certs : ∃ cs, r'.certs = r.certs ++ cs
  schemeId : r'.schemeId = r.schemeId
  lineage : r'.lineage = r.lineage
  extra : r'.extraBlocks = r.extraBlocks
  errors : ∃ es, r'.errors = r.errors ++ es
  warnings : ∃ ws, r'.warnings = r.warnings ++ ws

/-- At least one error was added. -/
def Core.Failed (r r' : Core) : Prop := ∃ es, es ≠ [] ∧ r'.errors = r.errors ++ es

theorem Core.Ext.refl (r : Core) : r.Ext r := ⟨⟨[], by simp [Core.addError, Core.addWarning]⟩, rfl, rfl, rfl, ⟨[], by simp⟩, ⟨[], by simp⟩⟩

theorem Core.Ext.trans {a b c : Core} (h : a.Ext b) (h' : b.Ext c) : a.Ext c := by
  obtain ⟨es, he⟩ := h.errors
  obtain ⟨es', he'⟩ := h'.errors
  obtain ⟨ws, hw⟩ := h.warnings
  obtain ⟨ws', hw'⟩ := h'.warnings
  obtain ⟨cs, hc⟩ := h.certs
  obtain ⟨cs', hc'⟩ := h'.certs
  exact ⟨⟨cs ++ cs', by rw [hc', hc, List.append_assoc]⟩, h'.schemeId.trans h.schemeId, h'.lineage.trans h.lineage, h'.extra.trans h.extra,
    ⟨es ++ es', by rw [he', he, List.append_assoc]⟩, ⟨ws ++ ws', by rw [hw', hw, List.append_assoc]⟩⟩

theorem Core.Ext.addError (r : Core) (e : E) : r.Ext (r.addError e) :=
  ⟨⟨[], by simp [Core.addError, Core.addWarning]⟩, rfl, rfl, rfl, ⟨[e], rfl⟩, ⟨[], by simp [Core.addError]⟩⟩

theorem Core.Ext.addWarning (r : Core) (w : W) : r.Ext (r.addWarning w) :=
  ⟨⟨[], by simp [Core.addError, Core.addWarning]⟩, rfl, rfl, rfl, ⟨[], by simp [Core.addWarning]⟩, ⟨[w], rfl⟩⟩

theorem Core.Failed.addError (r : Core) (e : E) : r.Failed (r.addError e) := ⟨[e], by simp, rfl⟩

theorem Core.Failed.of_eq {a b c : Core} (h : b.Failed c) (he : b.errors = a.errors) : a.Failed c := by
  obtain ⟨es, h1, h2⟩ := h
  exact ⟨es, h1, by rw [h2, he]⟩

theorem Core.Failed.trans_ext {a b c : Core} (h : a.Failed b) (h' : ∃ es, c.errors = b.errors ++ es) : a.Failed c := by
  obtain ⟨es, h1, h2⟩ := h
  obtain ⟨es', h3⟩ := h'
  exact ⟨es ++ es', by simp [h1], by rw [h3, h2, List.append_assoc]⟩

theorem Core.Failed.ne {a b : Core} (h : a.Failed b) : b.errors ≠ a.errors := by
  obtain ⟨es, h1, h2⟩ := h
  rw [h2]
  intro h
  exact h1 (List.append_right_eq_self.1 h)

theorem Core.Ext.trans_failed {a b c : Core} (h : a.Ext b) (h' : b.Failed c) : a.Failed c := by
  obtain ⟨es, h1⟩ := h.errors
  obtain ⟨es', h2, h3⟩ := h'
  exact ⟨es ++ es', by simp [h2], by rw [h3, h1, List.append_assoc]⟩

/-! ## Algorithms -/

/-- All supported ids. -/
def algIds : List Nat := [0x0101, 0x0102, 0x0103, 0x0104, 0x0201, 0x0202, 0x0301, 0x0421, 0x0423, 0x0425]

theorem isSupportedAlgo_iff (a : Nat) : isSupportedAlgo a = true ↔ a ∈ algIds := by
  simp [isSupportedAlgo, algIds, sigRsaPssWithSha256, sigRsaPssWithSha512, sigRsaPkcs1V15WithSha256,
    sigRsaPkcs1V15WithSha512, sigEcdsaWithSha256, sigEcdsaWithSha512, sigDsaWithSha256, sigVerityRsaPkcs1V15WithSha256,
    sigVerityEcdsaWithSha256, sigVerityDsaWithSha256, or_assoc]

theorem algStrength_pos (a : Nat) : 0 < algStrength a ↔ a ∈ algIds := by
  constructor
  · intro h
    unfold algStrength at h
    split at h
    · rename_i hm; simp only [List.mem_cons, List.not_mem_nil, or_false] at hm
      rcases hm with rfl | rfl | rfl | rfl <;> decide
    · split at h
      · rename_i hm; simp only [List.mem_cons, List.not_mem_nil, or_false] at hm
        rcases hm with rfl | rfl | rfl <;> decide
      · split at h
        · rename_i hm; simp only [List.mem_cons, List.not_mem_nil, or_false] at hm
          rcases hm with rfl | rfl | rfl <;> decide
        · omega
  · intro h
    have : ∀ a ∈ algIds, 0 < algStrength a := by decide
    exact this a h

theorem algStrength_zero (a : Nat) : isSupportedAlgo a = false ↔ algStrength a = 0 := by
  have h1 := isSupportedAlgo_iff a
  have h2 := algStrength_pos a
  cases h : isSupportedAlgo a
  · simp only [true_iff]
    rw [h] at h1; simp only [Bool.false_eq_true, false_iff] at h1
    have := mt h2.1 h1; omega
  · rw [h] at h1; simp only [true_iff] at h1
    have := h2.2 h1
    simp; omega

theorem getDigestType_ok {a : Nat} (h : 0 < algStrength a) : getDigestType a = .ok (algDigest a) := by
  have : ∀ a ∈ algIds, getDigestType a = .ok (algDigest a) := by decide
  exact this a ((algStrength_pos a).1 h)

theorem compareAlgos_spec {a b : Nat} (ha : 0 < algStrength a) (hb : 0 < algStrength b) :
    ∃ c, compareAlgos a b = .ok c ∧ (0 < c ↔ algStrength b < algStrength a) ∧ (c < 0 ↔ algStrength a < algStrength b) := by
  have key : ∀ a ∈ algIds, ∀ b ∈ algIds, compareAlgos a b =
      .ok (if algStrength b < algStrength a then 1 else if algStrength a < algStrength b then -1 else 0) := by decide
  refine ⟨_, key a ((algStrength_pos a).1 ha) b ((algStrength_pos b).1 hb), ?_, ?_⟩
  · split
    · simp [*]
    · split <;> simp <;> omega
  · split
    · simp; omega
    · split <;> simp <;> omega

/-! ## Signature lists -/

/-- The warnings caused by unsupported algorithms. -/
def sigWarnings (recs : List Bytes) : List W :=
  (recs.filter (fun r => decide (algStrength (recAlg r) = 0))).map (fun r => W.unsupportedAlgo (recAlg r))

/-- Invariant of the signature loop after the records `done`. -/
def SigInv (done : List Bytes) (ctx : SigCtx) : Prop :=
  SigsWF done ∧ ctx.algos = done.map recAlg ∧
  match ctx.best with
  | none => ∀ x ∈ done, algStrength (recAlg x) = 0
  | some (a, s) => SigSelected done a s

theorem snoc_split {α : Type} {done pre post : List α} {x y : α} (h : done ++ [x] = pre ++ y :: post) :
    (post = [] ∧ pre = done ∧ y = x) ∨ (∃ p, post = p ++ [x] ∧ done = pre ++ y :: p) := by
  rcases List.eq_nil_or_concat post with rfl | ⟨p, z, rfl⟩
  · left
    have : done ++ [x] = pre ++ [y] := h
    have := List.append_inj' this rfl
    exact ⟨rfl, this.1.symm, by simpa using this.2.symm⟩
  · right
    have h' : done ++ [x] = (pre ++ y :: p) ++ [z] := by rw [h]; simp
    have := List.append_inj' h' rfl
    refine ⟨p, ?_, this.1⟩
    have : x = z := by simpa using this.2
    rw [this]; simp

theorem SigsWF.snoc {done : List Bytes} {rec : Bytes} (h : SigsWF done) (hl : 8 ≤ rec.length)
    (hr : 0 < algStrength (recAlg rec) → (∀ x ∈ done, algStrength (recAlg x) < algStrength (recAlg rec)) →
      ∃ s, RecBody rec s) : SigsWF (done ++ [rec]) := by
  refine ⟨?_, ?_⟩
  · intro x hx
    rcases List.mem_append.1 hx with hx | hx
    · exact h.1 x hx
    · simp at hx; subst hx; exact hl
  · intro pre y post he hp hlt
    rcases snoc_split he with ⟨_, rfl, rfl⟩ | ⟨p, _, hd⟩
    · exact hr hp hlt
    · exact h.2 pre y p hd hp hlt

theorem rdLP_recBody {rec x rest : Bytes} (h : rdLP (rec.drop 4) = .ok (x, rest)) : RecBody rec x := by
  obtain ⟨h1, h2⟩ := rdLP_ok h
  exact ⟨h1, rest, h2⟩

theorem recBody_rdLP {rec x : Bytes} (h : RecBody rec x) : ∃ rest, rdLP (rec.drop 4) = .ok (x, rest) := by
  obtain ⟨h1, t, h2⟩ := h
  exact ⟨t, by rw [h2, rdLP_lp _ _ h1]⟩

theorem sigFold_spec (items : List Bytes) : ∀ (done : List Bytes) (r : Core) (ctx : SigCtx), SigInv done ctx →
    (SigsWF (done ++ items) → ∃ ctx', foldGo sigStep (r, ctx) items =
        .ok (({ r with warnings := r.warnings ++ sigWarnings items }, ctx'), true) ∧ SigInv (done ++ items) ctx') ∧
    (¬ SigsWF (done ++ items) → ∃ r' ctx', foldGo sigStep (r, ctx) items = .ok ((r', ctx'), false) ∧ r.Ext r' ∧
      r.Failed r') := by
  induction items with
  | nil =>
    intro done r ctx hinv
    simp only [List.append_nil]
    refine ⟨fun _ => ⟨ctx, ?_, hinv⟩, fun h => absurd hinv.1 h⟩
    simp [foldGo, sigWarnings]
  | cons rec items ih =>
    intro done r ctx hinv
    obtain ⟨hwf, halg, hbest⟩ := hinv
    have hcons : done ++ rec :: items = (done ++ [rec]) ++ items := by simp
    by_cases hlen : rec.length < 8
    · -- record too short
      have hstep : sigStep (r, ctx) rec = .ok ((r.addError .sigRecordShort, ctx), false) := by
        unfold sigStep; simp only; rw [if_pos hlen]
      constructor
      · intro h
        have := h.1 rec (by simp)
        omega
      · intro _
        refine ⟨r.addError .sigRecordShort, ctx, ?_, Core.Ext.addError _ _, Core.Failed.addError _ _⟩
        rw [foldGo, hstep]; rfl
    · have hlen' : 8 ≤ rec.length := by omega
      by_cases hsup : algStrength (recAlg rec) = 0
      · -- unsupported
        have hs := (algStrength_zero (recAlg rec)).2 hsup
        have hstep : sigStep (r, ctx) rec =
            .ok ((r.addWarning (.unsupportedAlgo (recAlg rec)), { ctx with algos := ctx.algos ++ [recAlg rec] }), true) := by
          unfold sigStep; simp only; rw [if_neg hlen]
          change (if (!isSupportedAlgo (recAlg rec)) = true then _ else _) = _
          rw [hs]; rfl
        have hinv' : SigInv (done ++ [rec]) { ctx with algos := ctx.algos ++ [recAlg rec] } := by
          refine ⟨hwf.snoc hlen' (by omega), by simp [halg], ?_⟩
          simp only
          cases hb : ctx.best with
          | none =>
            rw [hb] at hbest
            intro x hx
            rcases List.mem_append.1 hx with hx | hx
            · exact hbest x hx
            · simp at hx; subst hx; exact hsup
          | some p =>
            rw [hb] at hbest
            obtain ⟨pre, rc, post, h1, h2, h3, h4, h5, h6⟩ := hbest
            refine ⟨pre, rc, post ++ [rec], by rw [h1]; simp, h2, h3, h4, h5, ?_⟩
            intro x hx
            rcases List.mem_append.1 hx with hx | hx
            · exact h6 x hx
            · simp at hx; subst hx; omega
        obtain ⟨ih1, ih2⟩ := ih (done ++ [rec]) (r.addWarning (.unsupportedAlgo (recAlg rec))) _ hinv'
        rw [hcons, foldGo, hstep]
        constructor
        · intro h
          obtain ⟨ctx', h1, h2⟩ := ih1 h
          refine ⟨ctx', ?_, h2⟩
          change foldGo sigStep _ items = _
          rw [h1]
          simp [sigWarnings, hsup, Core.addWarning]
        · intro h
          obtain ⟨r', ctx', h1, h2, h3⟩ := ih2 h
          exact ⟨r', ctx', h1, (Core.Ext.addWarning _ _).trans h2, h3.of_eq rfl⟩
      · -- supported
        have hpos : 0 < algStrength (recAlg rec) := by omega
        have hs : isSupportedAlgo (recAlg rec) = true := (isSupportedAlgo_iff _).2 ((algStrength_pos _).1 hpos)
        obtain ⟨better, hbeq, hbiff⟩ : ∃ better : Bool,
            (match ctx.best with
              | none => (.ok true : Go Bool)
              | some (b, _) => do
                let c ← compareAlgos (recAlg rec) b
                .ok (decide (c > 0))) = .ok better ∧
            (better = true ↔ ∀ x ∈ done, algStrength (recAlg x) < algStrength (recAlg rec)) := by
          cases hb : ctx.best with
          | none =>
            rw [hb] at hbest
            refine ⟨true, rfl, by simp only [true_iff]; intro x hx; rw [hbest x hx]; exact hpos⟩
          | some p =>
            obtain ⟨b, sb⟩ := p
            rw [hb] at hbest
            obtain ⟨pre, rc, post, h1, h2, h3, h4, h5, h6⟩ := hbest
            obtain ⟨c, hc, hc1, _⟩ := compareAlgos_spec hpos h4
            refine ⟨decide (c > 0), by simp only [hc]; rfl, ?_⟩
            rw [decide_eq_true_iff, gt_iff_lt, hc1]
            constructor
            · intro hlt x hx
              rw [h1] at hx
              rcases List.mem_append.1 hx with hx | hx
              · exact Nat.lt_trans (h5 x hx) hlt
              · rcases List.mem_cons.1 hx with rfl | hx
                · rw [h2]; exact hlt
                · exact Nat.lt_of_le_of_lt (h6 x hx) hlt
            · intro hall
              have := hall rc (by rw [h1]; simp)
              rw [h2] at this; exact this
        have hstep : sigStep (r, ctx) rec = (if better then
              match rdLP (rec.drop 4) with
              | .error e => .ok ((r.addError (.sigBytesRead e), { ctx with algos := ctx.algos ++ [recAlg rec] }), false)
              | .ok (s, _) => .ok ((r, { best := some (recAlg rec, s), algos := ctx.algos ++ [recAlg rec] }), true)
            else .ok ((r, { ctx with algos := ctx.algos ++ [recAlg rec] }), true)) := by
          unfold sigStep; simp only; rw [if_neg hlen]
          change (if (!isSupportedAlgo (recAlg rec)) = true then _ else _) = _
          rw [hs]
          simp only [Bool.not_true, Bool.false_eq_true, if_false]
          revert hbeq
          cases ctx.best with
          | none =>
            intro hbeq
            simp only [Except.ok.injEq] at hbeq
            subst hbeq
            rfl
          | some p =>
            obtain ⟨b, sb⟩ := p
            intro hbeq
            simp only at hbeq ⊢
            change (do let c ← compareAlgos (recAlg rec) b; _) = _
            cases hc : compareAlgos (recAlg rec) b with
            | error e => rw [hc] at hbeq; cases hbeq
            | ok c =>
              rw [hc] at hbeq
              simp only [bind, Except.bind, Except.ok.injEq] at hbeq
              subst hbeq
              rfl
        have hw : sigWarnings (rec :: items) = sigWarnings items := by simp [sigWarnings, hsup]
        rw [hcons, foldGo, hstep, hw]
        cases hbt : better with
        | true =>
          rw [hbt] at hbiff
          have hall := hbiff.1 rfl
          simp only [if_true]
          cases hrd : rdLP (rec.drop 4) with
          | error e =>
            constructor
            · intro h
              obtain ⟨s, hs⟩ := h.2 done rec items (by simp) hpos hall
              obtain ⟨rest, hr⟩ := recBody_rdLP hs
              rw [hr] at hrd; cases hrd
            · intro _
              exact ⟨_, _, rfl, Core.Ext.addError _ _, Core.Failed.addError _ _⟩
          | ok p =>
            obtain ⟨s, rest⟩ := p
            have hbody := rdLP_recBody hrd
            have hinv' : SigInv (done ++ [rec]) { best := some (recAlg rec, s), algos := ctx.algos ++ [recAlg rec] } := by
              refine ⟨hwf.snoc hlen' (fun _ _ => ⟨s, hbody⟩), by simp [halg], ?_⟩
              exact ⟨done, rec, [], rfl, rfl, hbody, hpos, hall, by simp⟩
            exact ih (done ++ [rec]) r _ hinv'
        | false =>
          rw [hbt] at hbiff
          simp only [Bool.false_eq_true, false_iff] at hbiff
          simp only [Bool.false_eq_true, if_false]
          have hinv' : SigInv (done ++ [rec]) { ctx with algos := ctx.algos ++ [recAlg rec] } := by
            refine ⟨hwf.snoc hlen' (fun _ h => absurd h hbiff), by simp [halg], ?_⟩
            simp only
            cases hb : ctx.best with
            | none =>
              rw [hb] at hbest
              exact absurd (fun x hx => by rw [hbest x hx]; exact hpos) hbiff
            | some p =>
              rw [hb] at hbest
              obtain ⟨pre, rc, post, h1, h2, h3, h4, h5, h6⟩ := hbest
              refine ⟨pre, rc, post ++ [rec], by rw [h1]; simp, h2, h3, h4, h5, ?_⟩
              intro x hx
              rcases List.mem_append.1 hx with hx | hx
              · exact h6 x hx
              · simp at hx; subst hx
                apply Nat.le_of_not_lt
                intro hlt
                apply hbiff
                intro x hx
                rw [h1] at hx
                rcases List.mem_append.1 hx with hx | hx
                · exact Nat.lt_trans (h5 x hx) hlt
                · rcases List.mem_cons.1 hx with rfl | hx
                  · rw [h2]; exact hlt
                  · exact Nat.lt_of_le_of_lt (h6 x hx) hlt
          exact ih (done ++ [rec]) r _ hinv'

theorem SigSelected.unique {recs : List Bytes} {a a' : Nat} {s s' : Bytes} (h : SigSelected recs a s)
    (h' : SigSelected recs a' s') : a = a' ∧ s = s' := by
  obtain ⟨pre, rc, post, h1, h2, h3, h4, h5, h6⟩ := h
  obtain ⟨pre', rc', post', h1', h2', h3', h4', h5', h6'⟩ := h'
  have hle : ∀ x ∈ recs, algStrength (recAlg x) ≤ algStrength a := by
    intro x hx; rw [h1] at hx
    rcases List.mem_append.1 hx with hx | hx
    · exact Nat.le_of_lt (h5 x hx)
    · rcases List.mem_cons.1 hx with rfl | hx
      · rw [h2]; omega
      · exact h6 x hx
  have hle' : ∀ x ∈ recs, algStrength (recAlg x) ≤ algStrength a' := by
    intro x hx; rw [h1'] at hx
    rcases List.mem_append.1 hx with hx | hx
    · exact Nat.le_of_lt (h5' x hx)
    · rcases List.mem_cons.1 hx with rfl | hx
      · rw [h2']; omega
      · exact h6' x hx
  have e : algStrength a = algStrength a' := by
    have q1 := hle rc' (by rw [h1']; simp)
    have q2 := hle' rc (by rw [h1]; simp)
    rw [h2'] at q1; rw [h2] at q2; omega
  have hpl : pre.length = pre'.length := by
    rcases Nat.lt_trichotomy pre.length pre'.length with hlt | h | hlt
    · exfalso
      have : rc ∈ pre' := by
        have hg : recs[pre.length]? = some rc := by rw [h1]; simp
        rw [h1', List.getElem?_append_left hlt] at hg
        exact List.mem_of_getElem? hg
      have := h5' rc this; rw [h2] at this; omega
    · exact h
    · exfalso
      have : rc' ∈ pre := by
        have hg : recs[pre'.length]? = some rc' := by rw [h1']; simp
        rw [h1, List.getElem?_append_left hlt] at hg
        exact List.mem_of_getElem? hg
      have := h5 rc' this; rw [h2'] at this; omega
  have := List.append_inj (h1.symm.trans h1') hpl
  obtain ⟨_, hc⟩ := this
  simp only [List.cons.injEq] at hc
  obtain ⟨rfl, _⟩ := hc
  refine ⟨h2.symm.trans h2', ?_⟩
  obtain ⟨t, ht⟩ := recBody_rdLP h3
  obtain ⟨t', ht'⟩ := recBody_rdLP h3'
  rw [ht] at ht'
  simp only [Except.ok.injEq, Prod.mk.injEq] at ht'
  exact ht'.1

theorem SigsWF.selected {recs : List Bytes} (h : SigsWF recs) (hex : ∃ x ∈ recs, 0 < algStrength (recAlg x)) :
    ∃ a s, SigSelected recs a s := by
  obtain ⟨h1, _⟩ := sigFold_spec recs [] {} {} ⟨⟨by simp, by simp⟩, rfl, by simp⟩
  obtain ⟨ctx', _, h2, _, h3⟩ := h1 (by simpa using h)
  cases hb : ctx'.best with
  | none =>
    rw [hb] at h3
    obtain ⟨x, hx, hp⟩ := hex
    have := h3 x (by simpa using hx); omega
  | some p =>
    rw [hb] at h3
    exact ⟨p.1, p.2, by simpa using h3⟩

/-- `parseSignatures` on a specification-conforming list. -/
theorem parseSignatures_ok {sigs : Bytes} {recs : List Bytes} {a : Nat} {s : Bytes} (h : SigList sigs recs a s) (r : Core) :
    parseSignatures sigs r =
      .ok ({ r with warnings := r.warnings ++ sigWarnings recs }, ⟨some (a, s), recs.map recAlg⟩, true) := by
  obtain ⟨⟨h1, h2⟩, h3, h4⟩ := h
  unfold parseSignatures
  rw [(lpSplit_ok_iff sigs recs).2 ⟨h2, h1⟩]
  obtain ⟨hA, _⟩ := sigFold_spec recs [] r {} ⟨⟨by simp, by simp⟩, rfl, by simp⟩
  obtain ⟨ctx', hf, h5, h6, h7⟩ := hA (by simpa using h3)
  simp only [List.nil_append] at h6 h7
  have hb : ctx' = ⟨some (a, s), recs.map recAlg⟩ := by
    cases hb : ctx'.best with
    | none =>
      rw [hb] at h7
      obtain ⟨pre, rc, post, q1, q2, _, q4, _⟩ := h4
      have := h7 rc (by rw [q1]; simp)
      rw [q2] at this; omega
    | some p =>
      rw [hb] at h7
      obtain ⟨e1, e2⟩ := SigSelected.unique h7 h4
      obtain ⟨best, algos⟩ := ctx'
      simp only at hb h6
      rw [hb, h6, ← e1, ← e2]
  simp only [hf, bind, Except.bind]
  rw [hb]
  rfl

/-- `parseSignatures` on any other input: an error. -/
theorem parseSignatures_fail {sigs : Bytes} (h : ¬ ∃ recs a s, SigList sigs recs a s) (r : Core) :
    ∃ r' ctx, parseSignatures sigs r = .ok (r', ctx, false) ∧ r.Ext r' ∧ r.Failed r' := by
  unfold parseSignatures
  cases hs : lpSplit sigs with
  | mk items err =>
    obtain ⟨hA, hB⟩ := sigFold_spec items [] r {} ⟨⟨by simp, by simp⟩, rfl, by simp⟩
    simp only [List.nil_append] at hA hB
    by_cases hwf : SigsWF items
    · obtain ⟨ctx', hf, h5, h6, h7⟩ := hA hwf
      simp only [hf, bind, Except.bind, Bool.not_true, Bool.false_eq_true, if_false]
      have hext : r.Ext { r with warnings := r.warnings ++ sigWarnings items } :=
        ⟨⟨[], by simp [Core.addError, Core.addWarning]⟩, rfl, rfl, rfl, ⟨[], by simp⟩, ⟨_, rfl⟩⟩
      cases err with
      | some e => exact ⟨_, _, rfl, hext.trans (Core.Ext.addError _ _), (Core.Failed.addError _ _).of_eq rfl⟩
      | none =>
        obtain ⟨q1, q2⟩ := (lpSplit_ok_iff sigs items).1 hs
        cases hb : ctx'.best with
        | none => exact ⟨_, _, rfl, hext.trans (Core.Ext.addError _ _), (Core.Failed.addError _ _).of_eq rfl⟩
        | some p =>
          rw [hb] at h7
          exact absurd ⟨items, p.1, p.2, ⟨q2, q1⟩, hwf, h7⟩ h
    · obtain ⟨r', ctx', hf, h1, h2⟩ := hB hwf
      simp only [hf, bind, Except.bind, Bool.not_false, if_true]
      exact ⟨_, _, rfl, h1, h2⟩

/-! ## Signature verification -/

theorem verifySignature_iff (env : Env) (key : PubKey) (a : Nat) (data sig : Bytes) :
    verifySignature env key a data sig = .ok none ↔ SigValid env key a data sig := by
  have hite : ∀ (b : Bool) (e : E), (.ok (if b then none else some e) : Go (Option E)) = .ok none ↔ b = true := by
    intro b e; cases b <;> simp
  by_cases ha : a ∈ algIds
  · simp only [algIds, List.mem_cons, List.not_mem_nil, or_false] at ha
    have h256 := env.sha256_len data
    rcases ha with rfl | rfl | rfl | rfl | rfl | rfl | rfl | rfl | rfl | rfl
    all_goals
      unfold verifySignature SigValid
      simp only [sigRsaPssWithSha256, sigRsaPssWithSha512, sigRsaPkcs1V15WithSha256,
        sigRsaPkcs1V15WithSha512, sigEcdsaWithSha256, sigEcdsaWithSha512, sigDsaWithSha256, sigVerityRsaPkcs1V15WithSha256,
        sigVerityEcdsaWithSha256, sigVerityDsaWithSha256]
      simp (config := { decide := true }) only [if_true, if_false, true_and, false_and, or_false, false_or, true_or, or_true]
    case inl | inr.inl | inr.inr.inl | inr.inr.inr.inl | inr.inr.inr.inr.inr.inr.inr.inl =>
      by_cases hk : key.kind = .rsa
      · simp only [hk, ne_eq, not_true_eq_false, if_false, true_and, hite]
      · simp [hk]
    case inr.inr.inr.inr.inl | inr.inr.inr.inr.inr.inl | inr.inr.inr.inr.inr.inr.inr.inr.inl =>
      by_cases hk : key.kind = .ecdsa
      · cases hp : env.asn1Ints sig with
        | none => simp
        | some ps =>
          match ps with
          | [] => simp [hk]
          | [_] => simp [hk]
          | p0 :: p1 :: more =>
            simp only [hk, ne_eq, not_true_eq_false, if_false, true_and, hite, Option.some.injEq, List.cons.injEq]
            constructor
            · intro h; exact ⟨p0, p1, more, ⟨rfl, rfl, rfl⟩, h⟩
            · rintro ⟨_, _, _, ⟨rfl, rfl, rfl⟩, h⟩; exact h
      · cases hp : env.asn1Ints sig <;> simp [hk]
    all_goals
      by_cases hk : key.kind = .dsa
      · cases hp : env.asn1Ints sig with
        | none => simp
        | some ps =>
          by_cases hq : key.qBits / 8 ≤ 32
          · have hq' : ¬ key.qBits / 8 > (env.sha256 data).length := by omega
            match ps with
            | [] => simp [hk, hq']
            | [_] => simp [hk, hq']
            | p0 :: p1 :: more =>
              simp only [hk, hq, hq', ne_eq, not_true_eq_false, if_false, true_and, hite, Option.some.injEq, List.cons.injEq]
              constructor
              · intro h; exact ⟨p0, p1, more, ⟨rfl, rfl, rfl⟩, h⟩
              · rintro ⟨_, _, _, ⟨rfl, rfl, rfl⟩, h⟩; exact h
          · have hq' : key.qBits / 8 > (env.sha256 data).length := by omega
            simp [hk, hq, hq']
      · cases hp : env.asn1Ints sig <;> simp [hk]
  · have hn : verifySignature env key a data sig = .ok (some .unhandledSigType) := by
      simp only [algIds, List.mem_cons, List.not_mem_nil, or_false, not_or] at ha
      unfold verifySignature
      simp only [sigRsaPssWithSha256, sigRsaPssWithSha512, sigRsaPkcs1V15WithSha256,
        sigRsaPkcs1V15WithSha512, sigEcdsaWithSha256, sigEcdsaWithSha512, sigDsaWithSha256, sigVerityRsaPkcs1V15WithSha256,
        sigVerityEcdsaWithSha256, sigVerityDsaWithSha256]
      simp [ha]
    rw [hn]
    constructor
    · intro h; cases h
    · intro h
      exfalso; apply ha
      rcases h with ⟨rfl, _⟩ | ⟨rfl, _⟩ | ⟨rfl | rfl, _⟩ | ⟨rfl, _⟩ | ⟨rfl | rfl, _⟩ | ⟨rfl, _⟩ | ⟨rfl | rfl, _⟩ <;> decide

theorem verifySignature_total (env : Env) (key : PubKey) (a : Nat) (data sig : Bytes) :
    (∃ o, verifySignature env key a data sig = .ok o) ↔ KeyFits env key a sig := by
  by_cases ha : a ∈ algIds
  · simp only [algIds, List.mem_cons, List.not_mem_nil, or_false] at ha
    have h256 := env.sha256_len data
    rcases ha with rfl | rfl | rfl | rfl | rfl | rfl | rfl | rfl | rfl | rfl
    all_goals
      unfold verifySignature KeyFits
      simp only [sigRsaPssWithSha256, sigRsaPssWithSha512, sigRsaPkcs1V15WithSha256,
        sigRsaPkcs1V15WithSha512, sigEcdsaWithSha256, sigEcdsaWithSha512, sigDsaWithSha256, sigVerityRsaPkcs1V15WithSha256,
        sigVerityEcdsaWithSha256, sigVerityDsaWithSha256, List.mem_cons, List.not_mem_nil, or_false]
      simp (config := { decide := true }) only [if_true, if_false, true_and, false_and, or_false, false_or,
        true_implies, false_implies, and_true, implies_true]
    case inl | inr.inl | inr.inr.inl | inr.inr.inr.inl | inr.inr.inr.inr.inr.inr.inr.inl =>
      by_cases hk : key.kind = .rsa <;> simp [hk]
    case inr.inr.inr.inr.inl | inr.inr.inr.inr.inr.inl | inr.inr.inr.inr.inr.inr.inr.inr.inl =>
      cases hp : env.asn1Ints sig with
      | none => simp
      | some ps =>
        by_cases hk : key.kind = .ecdsa
        · match ps with
          | [] => simp [hk]
          | [_] => simp [hk]
          | p0 :: p1 :: more => simp [hk]
        · simp [hk]
    all_goals
      cases hp : env.asn1Ints sig with
      | none => simp
      | some ps =>
        by_cases hk : key.kind = .dsa
        · by_cases hq : key.qBits / 8 ≤ 32
          · have hq' : ¬ key.qBits / 8 > (env.sha256 data).length := by omega
            match ps with
            | [] => simp [hk, hq']
            | [_] => simp [hk, hq']
            | p0 :: p1 :: more => simp [hk, hq, hq']
          · have hq' : key.qBits / 8 > (env.sha256 data).length := by omega
            simp [hk, hq, hq']
        · simp [hk]
  · simp only [algIds, List.mem_cons, List.not_mem_nil, or_false, not_or] at ha
    have hn : verifySignature env key a data sig = .ok (some .unhandledSigType) := by
      unfold verifySignature
      simp only [sigRsaPssWithSha256, sigRsaPssWithSha512, sigRsaPkcs1V15WithSha256,
        sigRsaPkcs1V15WithSha512, sigEcdsaWithSha256, sigEcdsaWithSha512, sigDsaWithSha256, sigVerityRsaPkcs1V15WithSha256,
        sigVerityEcdsaWithSha256, sigVerityDsaWithSha256]
      simp [ha]
    rw [hn]
    simp [KeyFits, ha]

/-! ## Public key -/

theorem parsePublicKey_ok {env : Env} {pk : Bytes} {a : Nat} {sig data : Bytes} (h : KeyAccepts env pk a data sig) (r : Core) :
    parsePublicKey env pk (a, sig) data r = .ok (r, true) := by
  obtain ⟨key, h1, h2⟩ := h
  unfold parsePublicKey
  rw [h1]
  simp only
  rw [(verifySignature_iff env key a data sig).2 h2]
  rfl

theorem parsePublicKey_fail {env : Env} {pk : Bytes} {a : Nat} {sig data : Bytes} (h : ¬ KeyAccepts env pk a data sig)
    {r r' : Core} {b : Bool} (hp : parsePublicKey env pk (a, sig) data r = .ok (r', b)) :
    b = false ∧ r.Ext r' ∧ r.Failed r' := by
  unfold parsePublicKey at hp
  cases hk : env.parsePKIX pk with
  | none =>
    rw [hk] at hp
    simp only [Except.ok.injEq, Prod.mk.injEq] at hp
    obtain ⟨rfl, rfl⟩ := hp
    exact ⟨rfl, Core.Ext.addError _ _, Core.Failed.addError _ _⟩
  | some key =>
    rw [hk] at hp
    simp only at hp
    cases hv : verifySignature env key a data sig with
    | error e => rw [hv] at hp; cases hp
    | ok o =>
      cases o with
      | none => exact absurd ⟨key, hk, (verifySignature_iff _ _ _ _ _).1 hv⟩ h
      | some e =>
        rw [hv] at hp
        simp only [bind, Except.bind, Except.ok.injEq, Prod.mk.injEq] at hp
        obtain ⟨rfl, rfl⟩ := hp
        exact ⟨rfl, Core.Ext.addError _ _, Core.Failed.addError _ _⟩

/-! ## Certificates -/

/-- The chains after the certificates `adder` of the current signer were added to `base`. -/
def chainsWith (base : List (List Cert)) (adder : List Cert) : List (List Cert) :=
  if adder = [] then base else base ++ [adder]

theorem certAppend_spec (base : List (List Cert)) (adder : List Cert) (c : Cert) :
    certAppend adder (chainsWith base adder) c = (adder ++ [c], chainsWith base (adder ++ [c])) := by
  unfold certAppend chainsWith
  cases adder with
  | nil => simp
  | cons x xs => simp

theorem certLoop_spec (env : Env) (base : List (List Cert)) (ders : List Bytes) : ∀ (r : Core) (adder : List Cert),
    r.certs = chainsWith base adder →
    (∀ cs, ders.map env.parseCertAndr = cs.map some →
      certLoop env r adder ders = ({ r with certs := chainsWith base (adder ++ cs) }, adder ++ cs, true)) ∧
    ((¬ ∃ cs : List Cert, ders.map env.parseCertAndr = cs.map some) →
      ∃ r' a', certLoop env r adder ders = (r', a', false) ∧ r.Failed r' ∧
        ∃ a'', r' = { r with certs := chainsWith base (adder ++ a''), errors := r'.errors }) := by
  induction ders with
  | nil =>
    intro r adder hr
    refine ⟨?_, fun h => absurd ⟨[], rfl⟩ h⟩
    intro cs hcs
    have : cs = [] := by cases cs with
      | nil => rfl
      | cons => simp at hcs
    subst this
    simp [certLoop, ← hr]
  | cons der ders ih =>
    intro r adder hr
    unfold certLoop
    cases hp : env.parseCertAndr der with
    | none =>
      simp only
      constructor
      · intro cs hcs
        cases cs with
        | nil => simp at hcs
        | cons c cs => simp [hp] at hcs
      · intro _
        exact ⟨_, _, rfl, Core.Failed.addError _ _, [], by simp [Core.addError, ← hr]⟩
    | some c =>
      simp only
      rw [hr, certAppend_spec]
      simp only
      obtain ⟨ih1, ih2⟩ := ih { r with certs := chainsWith base (adder ++ [c]) } (adder ++ [c]) rfl
      constructor
      · intro cs hcs
        cases cs with
        | nil => simp at hcs
        | cons c' cs =>
          simp only [List.map_cons, List.cons.injEq, hp, Option.some.injEq] at hcs
          obtain ⟨rfl, hcs⟩ := hcs
          rw [ih1 cs hcs]
          simp
      · intro hn
        obtain ⟨r', a', h1, h2, a'', h3⟩ := ih2 (by
          rintro ⟨cs, hcs⟩
          exact hn ⟨c :: cs, by simp [hp, hcs]⟩)
        refine ⟨r', a', h1, h2.of_eq rfl, c :: a'', ?_⟩
        conv => lhs; rw [h3]
        simp

theorem parseCertificates_ok {env : Env} {certs pk : Bytes} {main : Cert} {more : List Cert}
    (h : CertList env certs pk main more) (r : Core) :
    parseCertificates env certs pk r = ({ r with certs := r.certs ++ [main :: more] }, some main) := by
  obtain ⟨ders, ⟨h1, h2⟩, h3, h4⟩ := h
  unfold parseCertificates
  rw [(lpSplit_ok_iff certs ders).2 ⟨h2, h1⟩]
  simp only
  rw [(certLoop_spec env r.certs ders r [] (by simp [chainsWith])).1 _ h3]
  simp [h4, chainsWith]

theorem parseCertificates_fail {env : Env} {certs pk : Bytes} (h : ¬ ∃ main more, CertList env certs pk main more) (r : Core) :
    ∃ r', parseCertificates env certs pk r = (r', none) ∧ r.Ext r' ∧ r.Failed r' := by
  have hext : ∀ a, r.Ext { r with certs := chainsWith r.certs a } := by
    intro a
    refine ⟨?_, rfl, rfl, rfl, ⟨[], by simp⟩, ⟨[], by simp⟩⟩
    unfold chainsWith
    split
    · exact ⟨[], by simp⟩
    · exact ⟨[a], rfl⟩
  unfold parseCertificates
  cases hs : lpSplit certs with
  | mk items err =>
    simp only
    obtain ⟨hA, hB⟩ := certLoop_spec env r.certs items r [] (by simp [chainsWith])
    by_cases hp : ∃ cs : List Cert, items.map env.parseCertAndr = cs.map some
    · obtain ⟨cs, hcs⟩ := hp
      rw [hA cs hcs]
      simp only [List.nil_append, Bool.not_true, Bool.false_eq_true, if_false]
      cases err with
      | some e => exact ⟨_, rfl, (hext cs).trans (Core.Ext.addError _ _), (Core.Failed.addError _ _).of_eq rfl⟩
      | none =>
        obtain ⟨q1, q2⟩ := (lpSplit_ok_iff certs items).1 hs
        cases cs with
        | nil => exact ⟨_, rfl, (hext []).trans (Core.Ext.addError _ _), (Core.Failed.addError _ _).of_eq rfl⟩
        | cons main more =>
          simp only
          by_cases hk : main.spki = pk
          · exact absurd ⟨main, more, items, ⟨q2, q1⟩, hcs, hk⟩ h
          · rw [if_pos hk]
            exact ⟨_, rfl, (hext (main :: more)).trans (Core.Ext.addError _ _), (Core.Failed.addError _ _).of_eq rfl⟩
    · obtain ⟨r', a', h1, h2, a'', h3⟩ := hB hp
      rw [h1]
      simp only [Bool.not_false, if_true]
      refine ⟨r', rfl, ?_, h2⟩
      obtain ⟨es, _, he⟩ := h2
      have := hext ([] ++ a'')
      rw [h3]
      exact ⟨this.certs, rfl, rfl, rfl, ⟨es, he⟩, ⟨[], by simp⟩⟩

/-! ## Digests -/

/-- The loop over digest records accepts the records. -/
def DigestsWF (a : Nat) (recs : List Bytes) : Prop :=
  (∀ rec ∈ recs, 8 ≤ rec.length) ∧ ∀ rec ∈ recs, recAlg rec = a → ∃ x, RecBody rec x

/-- `d` is the digest of the last record with algorithm `a`. -/
def LastDigest (recs : List Bytes) (a : Nat) (d : Bytes) : Prop :=
  ∃ pre rec post, recs = pre ++ rec :: post ∧ recAlg rec = a ∧ RecBody rec d ∧ ∀ x ∈ post, recAlg x ≠ a

theorem digestFold_spec (a : Nat) (items : List Bytes) : ∀ (done : List Bytes) (r : Core) (algos : List Nat) (d : Bytes),
    DigestsWF a done → algos = done.map recAlg → (LastDigest done a d ∨ ∀ x ∈ done, recAlg x ≠ a) →
    (DigestsWF a (done ++ items) → ∃ d', foldGo (digestStep a) (r, algos, d) items =
        .ok ((r, (done ++ items).map recAlg, d'), true) ∧ (LastDigest (done ++ items) a d' ∨ ∀ x ∈ done ++ items, recAlg x ≠ a)) ∧
    (¬ DigestsWF a (done ++ items) → ∃ r' st, foldGo (digestStep a) (r, algos, d) items = .ok ((r', st), false) ∧
      r.Ext r' ∧ r.Failed r') := by
  induction items with
  | nil =>
    intro done r algos d hwf halg hl
    simp only [List.append_nil]
    exact ⟨fun _ => ⟨d, by rw [foldGo, halg], hl⟩, fun h => absurd hwf h⟩
  | cons rec items ih =>
    intro done r algos d hwf halg hl
    have hcons : done ++ rec :: items = (done ++ [rec]) ++ items := by simp
    by_cases hlen : rec.length < 8
    · have hstep : digestStep a (r, algos, d) rec = .ok ((r.addError .digestRecordShort, algos, d), false) := by
        unfold digestStep; simp only; rw [if_pos hlen]
      constructor
      · intro h; have := h.1 rec (by simp); omega
      · intro _
        refine ⟨r.addError .digestRecordShort, (algos, d), ?_, Core.Ext.addError _ _, Core.Failed.addError _ _⟩
        rw [foldGo, hstep]; rfl
    · have hlen' : 8 ≤ rec.length := by omega
      by_cases ha : recAlg rec = a
      · cases hrd : rdLP (rec.drop 4) with
        | error e =>
          have hstep : digestStep a (r, algos, d) rec =
              .ok ((r.addError (.digestBytesRead e), algos ++ [recAlg rec], d), false) := by
            unfold digestStep; simp only; rw [if_neg hlen]
            change (if recAlg rec = a then _ else _) = _
            rw [if_pos ha, hrd]; rfl
          constructor
          · intro h
            obtain ⟨x, hx⟩ := h.2 rec (by simp) ha
            obtain ⟨t, ht⟩ := recBody_rdLP hx
            rw [ht] at hrd; cases hrd
          · intro _
            refine ⟨r.addError (.digestBytesRead e), _, by rw [foldGo, hstep]; rfl, Core.Ext.addError _ _, Core.Failed.addError _ _⟩
        | ok p =>
          obtain ⟨x, rest⟩ := p
          have hstep : digestStep a (r, algos, d) rec = .ok ((r, algos ++ [recAlg rec], x), true) := by
            unfold digestStep; simp only; rw [if_neg hlen]
            change (if recAlg rec = a then _ else _) = _
            rw [if_pos ha, hrd]; rfl
          rw [hcons, foldGo, hstep]
          refine ih (done ++ [rec]) r _ x ?_ (by rw [halg]; simp) (Or.inl ⟨done, rec, [], rfl, ha, rdLP_recBody hrd, by simp⟩)
          refine ⟨fun y hy => ?_, fun y hy hya => ?_⟩
          · rcases List.mem_append.1 hy with hy | hy
            · exact hwf.1 y hy
            · simp at hy; subst hy; exact hlen'
          · rcases List.mem_append.1 hy with hy | hy
            · exact hwf.2 y hy hya
            · simp at hy; subst hy; exact ⟨x, rdLP_recBody hrd⟩
      · have hstep : digestStep a (r, algos, d) rec = .ok ((r, algos ++ [recAlg rec], d), true) := by
          unfold digestStep; simp only; rw [if_neg hlen]
          change (if recAlg rec = a then _ else _) = _
          rw [if_neg ha]; rfl
        rw [hcons, foldGo, hstep]
        refine ih (done ++ [rec]) r _ d ?_ (by rw [halg]; simp) ?_
        · refine ⟨fun y hy => ?_, fun y hy hya => ?_⟩
          · rcases List.mem_append.1 hy with hy | hy
            · exact hwf.1 y hy
            · simp at hy; subst hy; exact hlen'
          · rcases List.mem_append.1 hy with hy | hy
            · exact hwf.2 y hy hya
            · simp at hy; subst hy; exact absurd hya ha
        · rcases hl with ⟨pre, rc, post, h1, h2, h3, h4⟩ | hl
          · left
            refine ⟨pre, rc, post ++ [rec], by rw [h1]; simp, h2, h3, ?_⟩
            intro y hy
            rcases List.mem_append.1 hy with hy | hy
            · exact h4 y hy
            · simp at hy; subst hy; exact ha
          · right
            intro y hy
            rcases List.mem_append.1 hy with hy | hy
            · exact hl y hy
            · simp at hy; subst hy; exact ha

theorem LastDigest.unique {recs : List Bytes} {a : Nat} {d d' : Bytes} (h : LastDigest recs a d) (h' : LastDigest recs a d') :
    d = d' := by
  obtain ⟨pre, rc, post, h1, h2, h3, h4⟩ := h
  obtain ⟨pre', rc', post', h1', h2', h3', h4'⟩ := h'
  have hpl : pre.length = pre'.length := by
    rcases Nat.lt_trichotomy pre.length pre'.length with hlt | h | hlt
    · exfalso
      have hg : recs[pre'.length]? = some rc' := by rw [h1']; simp
      rw [h1, List.getElem?_append_right (Nat.le_of_lt hlt)] at hg
      obtain ⟨k, hk⟩ : ∃ k, pre'.length - pre.length = k + 1 := ⟨pre'.length - pre.length - 1, by omega⟩
      rw [hk, List.getElem?_cons_succ] at hg
      exact h4 _ (List.mem_of_getElem? hg) h2'
    · exact h
    · exfalso
      have hg : recs[pre.length]? = some rc := by rw [h1]; simp
      rw [h1', List.getElem?_append_right (Nat.le_of_lt hlt)] at hg
      obtain ⟨k, hk⟩ : ∃ k, pre.length - pre'.length = k + 1 := ⟨pre.length - pre'.length - 1, by omega⟩
      rw [hk, List.getElem?_cons_succ] at hg
      exact h4' _ (List.mem_of_getElem? hg) h2
  obtain ⟨_, hc⟩ := List.append_inj (h1.symm.trans h1') hpl
  simp only [List.cons.injEq] at hc
  obtain ⟨rfl, _⟩ := hc
  obtain ⟨t, ht⟩ := recBody_rdLP h3
  obtain ⟨t', ht'⟩ := recBody_rdLP h3'
  rw [ht] at ht'
  simp only [Except.ok.injEq, Prod.mk.injEq] at ht'
  exact ht'.1

/-- The digest map agrees with the digest `d`. -/
def Agrees (cd : Digests) (t : CD) (d : Bytes) : Prop := ∀ d', mget cd t = some d' → d' = d

theorem parseDigests_ok {digests : Bytes} {recs : List Bytes} {a : Nat} {d : Bytes} (h : DigestList digests recs a d)
    (ha : 0 < algStrength a) {cd : Digests} (hagr : Agrees cd (algDigest a) d) (r : Core) :
    parseDigests digests a (recs.map recAlg) cd r = .ok (r, mset cd (algDigest a) d, true) := by
  obtain ⟨⟨h1, h2⟩, h3, h4, h5⟩ := h
  unfold parseDigests
  rw [(lpSplit_ok_iff digests recs).2 ⟨h2, h1⟩]
  obtain ⟨hA, _⟩ := digestFold_spec a recs [] r [] [] ⟨by simp, by simp⟩ rfl (Or.inr (by simp))
  obtain ⟨d', hf, hl⟩ := hA (by simp only [List.nil_append]; exact ⟨h3, h4⟩)
  simp only [List.nil_append] at hf hl
  have hd : d' = d := by
    rcases hl with hl | hl
    · exact hl.unique h5
    · obtain ⟨pre, rc, post, q1, q2, _⟩ := h5
      exact absurd q2 (hl rc (by rw [q1]; simp))
  subst hd
  simp only [hf, bind, Except.bind, Bool.not_true, Bool.false_eq_true, if_false, ne_eq, not_true_eq_false]
  rw [getDigestType_ok ha]
  simp only
  cases hm : mget cd (algDigest a) with
  | none => rfl
  | some p => simp only; rw [hagr p hm]; simp

theorem parseDigests_fail {digests : Bytes} {sigAlgos : List Nat} {a : Nat} (ha : 0 < algStrength a) (hmem : a ∈ sigAlgos)
    {cd : Digests} (h : ¬ ∃ recs d, DigestList digests recs a d ∧ recs.map recAlg = sigAlgos ∧ Agrees cd (algDigest a) d)
    (r : Core) :
    ∃ r' cd', parseDigests digests a sigAlgos cd r = .ok (r', cd', false) ∧ r.Ext r' ∧ r.Failed r' := by
  unfold parseDigests
  cases hs : lpSplit digests with
  | mk items err =>
    obtain ⟨hA, hB⟩ := digestFold_spec a items [] r [] [] ⟨by simp, by simp⟩ rfl (Or.inr (by simp))
    simp only [List.nil_append] at hA hB
    by_cases hwf : DigestsWF a items
    · obtain ⟨d', hf, hl⟩ := hA hwf
      simp only [hf, bind, Except.bind, Bool.not_true, Bool.false_eq_true, if_false]
      cases err with
      | some e => exact ⟨_, _, rfl, Core.Ext.addError _ _, Core.Failed.addError _ _⟩
      | none =>
        obtain ⟨q1, q2⟩ := (lpSplit_ok_iff digests items).1 hs
        simp only
        by_cases hal : items.map recAlg = sigAlgos
        · rw [if_neg (by simp [hal]), getDigestType_ok ha]
          simp only
          have hl' : LastDigest items a d' := by
            rcases hl with hl | hl
            · exact hl
            · rw [← hal] at hmem
              obtain ⟨x, hx, hxa⟩ := List.mem_map.1 hmem
              exact absurd hxa (hl x hx)
          have hdl : DigestList digests items a d' := ⟨⟨q2, q1⟩, hwf.1, hwf.2, hl'⟩
          cases hm : mget cd (algDigest a) with
          | none => exact absurd ⟨items, d', hdl, hal, by intro p hp; rw [hm] at hp; cases hp⟩ h
          | some p =>
            simp only
            by_cases hpd : p = d'
            · exact absurd ⟨items, d', hdl, hal, by intro q hq; rw [hm] at hq; cases hq; exact hpd⟩ h
            · rw [if_pos hpd]
              exact ⟨_, _, rfl, Core.Ext.addError _ _, Core.Failed.addError _ _⟩
        · rw [if_pos hal]
          exact ⟨_, _, rfl, Core.Ext.addError _ _, Core.Failed.addError _ _⟩
    · obtain ⟨r', st, hf, h1, h2⟩ := hB hwf
      obtain ⟨x, y⟩ := st
      simp only [hf, bind, Except.bind, Bool.not_false, if_true]
      exact ⟨_, _, rfl, h1, h2⟩

theorem SigSelected.mem {recs : List Bytes} {a : Nat} {s : Bytes} (h : SigSelected recs a s) :
    a ∈ recs.map recAlg ∧ 0 < algStrength a := by
  obtain ⟨pre, rc, post, h1, h2, _, h4, _⟩ := h
  exact ⟨by rw [h1]; simp [h2], h4⟩

end Apk
