import Verif.Model.Block
import Verif.Proofs.Base
/-! # The scheme verifiers only append errors and warnings and only look up scheme blocks among the extra blocks

A `Frame` puts a prefix before the errors and the warnings of a result and replaces its extra blocks by others that
agree on the scheme blocks; every verifier commutes with it. -/
namespace Apk
set_option linter.unusedSimpArgs false

/-- A change of the result that the verifiers cannot see. -/
structure Frame where
  w : List W
  es : List E
  h : List (Nat × Bytes) → List (Nat × Bytes)
  agree2 : ∀ l, mget (h l) blockIdSchemeV2 = mget l blockIdSchemeV2
  agree3 : ∀ l, mget (h l) blockIdSchemeV3 = mget l blockIdSchemeV3
  agree31 : ∀ l, mget (h l) blockIdSchemeV31 = mget l blockIdSchemeV31

namespace Frame
variable (F : Frame)

/-- Apply the change. -/
def ap (r : Core) : Core := ⟨r.certs, r.schemeId, r.lineage, F.h r.extraBlocks, F.w ++ r.warnings, F.es ++ r.errors⟩

@[simp] theorem ap_certs (r : Core) : (F.ap r).certs = r.certs := rfl
@[simp] theorem ap_lineage (r : Core) : (F.ap r).lineage = r.lineage := rfl
@[simp] theorem ap_schemeId (r : Core) : (F.ap r).schemeId = r.schemeId := rfl
theorem ap_addError (r : Core) (e : E) : (F.ap r).addError e = F.ap (r.addError e) := by
  simp [ap, Core.addError]
theorem ap_addWarning (r : Core) (e : W) : (F.ap r).addWarning e = F.ap (r.addWarning e) := by
  simp [ap, Core.addWarning]
theorem ap_setCerts (r : Core) (c : List (List Cert)) : { F.ap r with certs := c } = F.ap { r with certs := c } := rfl
theorem ap_setLineage (r : Core) (c : Option Lineage) : { F.ap r with lineage := c } = F.ap { r with lineage := c } := rfl
theorem ap_if (c : Prop) [Decidable c] (r r' : Core) : (if c then F.ap r else F.ap r') = F.ap (if c then r else r') := by
  split <;> rfl

theorem agree (l : List (Nat × Bytes)) {i : Int} {bid : Nat} (hb : schemeIdToBlockId i = some bid) :
    mget (F.h l) bid = mget l bid := by
  unfold schemeIdToBlockId at hb
  split at hb
  · cases hb; exact F.agree2 l
  · split at hb
    · cases hb; exact F.agree3 l
    · split at hb
      · cases hb; exact F.agree31 l
      · cases hb

theorem foldGo_ap {σ α : Type} {step : σ → α → Go (σ × Bool)} {g : σ → σ}
    (hstep : ∀ s a, step (g s) a = (step s a).map (fun x => (g x.1, x.2))) (l : List α) : ∀ s,
    foldGo step (g s) l = (foldGo step s l).map (fun x => (g x.1, x.2)) := by
  induction l with
  | nil => intro s; rfl
  | cons a l ih =>
    intro s
    simp only [foldGo, hstep]
    cases hs : step s a with
    | error p => rfl
    | ok x =>
      obtain ⟨s', c⟩ := x
      simp only [Except.map, bind, Except.bind]
      cases c with
      | false => rfl
      | true => simp only [if_true]; exact ih s'

theorem sigStep_ap (s : Core × SigCtx) (rec : Bytes) :
    sigStep (F.ap s.1, s.2) rec = (sigStep s rec).map (fun x => ((F.ap x.1.1, x.1.2), x.2)) := by
  obtain ⟨r, ctx⟩ := s
  unfold sigStep
  simp only [ap_addError, ap_addWarning]
  split
  · rfl
  · split
    · rfl
    · simp only [bind, Except.bind]
      cases ctx.best with
      | none =>
        simp only [if_true]
        cases rdLP (rec.drop 4) <;> rfl
      | some b =>
        simp only
        cases compareAlgos (leNat (List.take 4 rec)) b.1 with
        | error p => rfl
        | ok v =>
          simp only
          split
          · cases rdLP (rec.drop 4) <;> rfl
          · rfl

theorem parseSignatures_ap (sigs : Bytes) (r : Core) :
    parseSignatures sigs (F.ap r) = (parseSignatures sigs r).map (fun x => (F.ap x.1, x.2)) := by
  unfold parseSignatures
  have := foldGo_ap (step := sigStep) (g := fun s => (F.ap s.1, s.2)) (F.sigStep_ap) (lpSplit sigs).1 (r, {})
  simp only at this
  simp only [this]
  cases foldGo sigStep (r, {}) (lpSplit sigs).1 with
  | error p => rfl
  | ok x =>
    obtain ⟨⟨r', ctx⟩, d⟩ := x
    simp only [Except.map, bind, Except.bind]
    cases d
    · rfl
    · simp only [Bool.not_true, Bool.false_eq_true, if_false, ap_addError]
      cases (lpSplit sigs).2 with
      | some e => rfl
      | none => cases ctx.best <;> rfl

theorem parsePublicKey_ap (env : Env) (pk : Bytes) (best : Nat × Bytes) (sd : Bytes) (r : Core) :
    parsePublicKey env pk best sd (F.ap r) = (parsePublicKey env pk best sd r).map (fun x => (F.ap x.1, x.2)) := by
  unfold parsePublicKey
  simp only [ap_addError]
  cases env.parsePKIX pk with
  | none => rfl
  | some k =>
    simp only [bind, Except.bind]
    cases verifySignature env k best.1 sd best.2 with
    | error p => rfl
    | ok o => cases o <;> rfl

theorem certLoop_ap (env : Env) (cs : List Bytes) : ∀ r adder,
    certLoop env (F.ap r) adder cs = (F.ap (certLoop env r adder cs).1, (certLoop env r adder cs).2) := by
  induction cs with
  | nil => intro r a; rfl
  | cons c cs ih =>
    intro r a
    simp only [certLoop, ap_addError]
    cases env.parseCertAndr c with
    | none => rfl
    | some x => exact ih { r with certs := (certAppend a r.certs x).2 } _

theorem parseCertificates_ap (env : Env) (cs pk : Bytes) (r : Core) :
    parseCertificates env cs pk (F.ap r) = (F.ap (parseCertificates env cs pk r).1, (parseCertificates env cs pk r).2) := by
  unfold parseCertificates
  simp only [certLoop_ap]
  obtain ⟨r', a, d⟩ := certLoop env r [] (lpSplit cs).1
  simp only [ap_addError]
  cases d
  · rfl
  · simp only [Bool.not_true, Bool.false_eq_true, if_false]
    cases (lpSplit cs).2 with
    | some e => rfl
    | none =>
      cases a with
      | nil => rfl
      | cons m ms => simp only; split <;> rfl

theorem digestStep_ap (best : Nat) (s : Core × List Nat × Bytes) (rec : Bytes) :
    digestStep best (F.ap s.1, s.2) rec = (digestStep best s rec).map (fun x => ((F.ap x.1.1, x.1.2), x.2)) := by
  obtain ⟨r, a, d⟩ := s
  unfold digestStep
  simp only [ap_addError]
  split
  · rfl
  · split
    · cases rdLP (rec.drop 4) <;> rfl
    · rfl

theorem parseDigests_ap (ds : Bytes) (best : Nat) (sa : List Nat) (cd : Digests) (r : Core) :
    parseDigests ds best sa cd (F.ap r) = (parseDigests ds best sa cd r).map (fun x => (F.ap x.1, x.2)) := by
  unfold parseDigests
  have := foldGo_ap (step := digestStep best) (g := fun s => (F.ap s.1, s.2)) (F.digestStep_ap best) (lpSplit ds).1 (r, [], [])
  simp only at this
  simp only [this]
  cases foldGo (digestStep best) (r, [], []) (lpSplit ds).1 with
  | error p => rfl
  | ok x =>
    obtain ⟨⟨r', al, d⟩, c⟩ := x
    simp only [Except.map, bind, Except.bind, ap_addError]
    cases c
    · rfl
    · simp only [Bool.not_true, Bool.false_eq_true, if_false]
      cases (lpSplit ds).2 with
      | some e => rfl
      | none =>
        simp only
        split
        · rfl
        · cases getDigestType best with
          | error p => rfl
          | ok t =>
            simp only
            cases mget cd t with
            | none => rfl
            | some pr => simp only; split <;> rfl

theorem v2AttrStep_ap (m : Int) (r : Core) (a : Bytes) :
    v2AttrStep m (F.ap r) a = (v2AttrStep m r a).map (fun x => (F.ap x.1, x.2)) := by
  unfold v2AttrStep
  simp only [ap_addError, ap_addWarning]
  cases rdU32 a with
  | none => rfl
  | some x =>
    obtain ⟨id, rest⟩ := x
    simp only
    split
    · split
      · rfl
      · cases rdU32 rest with
        | none => rfl
        | some y =>
          obtain ⟨v, t⟩ := y
          simp only
          cases hb : schemeIdToBlockId (toI32 v) with
          | none => rfl
          | some bid =>
            have hag : mget (F.ap r).extraBlocks bid = mget r.extraBlocks bid := F.agree _ hb
            simp only [hag]
            cases mget r.extraBlocks bid <;> rfl
    · rfl

theorem v2VerifySigner_ap (env : Env) (m : Int) (s : Bytes) (cd : Digests) (r : Core) :
    v2VerifySigner env m s cd (F.ap r) = (v2VerifySigner env m s cd r).map (fun x => (F.ap x.1, x.2)) := by
  unfold v2VerifySigner
  simp only [ap_addError]
  cases rdLP s with
  | error e => rfl
  | ok x =>
    obtain ⟨sd, b1⟩ := x
    simp only
    cases rdLP b1 with
    | error e => rfl
    | ok x =>
      obtain ⟨sigs, b2⟩ := x
      simp only [parseSignatures_ap]
      cases parseSignatures sigs r with
      | error p => rfl
      | ok x =>
        obtain ⟨r1, ctx, ok⟩ := x
        simp only [Except.map, bind, Except.bind]
        cases ok with
        | false => rfl
        | true =>
          cases ctx.best with
          | none => rfl
          | some best =>
            simp only [ap_addError]
            cases rdLP b2 with
            | error e => rfl
            | ok x =>
              obtain ⟨pk, t⟩ := x
              simp only [parsePublicKey_ap]
              cases parsePublicKey env pk best sd r1 with
              | error p => rfl
              | ok x =>
                obtain ⟨r2, ok⟩ := x
                simp only [Except.map, bind, Except.bind, ap_addError]
                cases ok with
                | false => rfl
                | true =>
                  simp only [Bool.not_true, Bool.false_eq_true, if_false]
                  cases rdLP sd with
                  | error e => rfl
                  | ok x =>
                    obtain ⟨ds, d1⟩ := x
                    simp only
                    cases rdLP d1 with
                    | error e => rfl
                    | ok x =>
                      obtain ⟨cs, d2⟩ := x
                      simp only [parseCertificates_ap]
                      obtain ⟨r3, mn⟩ := parseCertificates env cs pk r2
                      cases mn with
                      | none => rfl
                      | some c =>
                        simp only [parseDigests_ap]
                        cases parseDigests ds best.1 ctx.algos cd r3 with
                        | error p => rfl
                        | ok x =>
                          obtain ⟨r4, cd', ok⟩ := x
                          simp only [Except.map, bind, Except.bind, ap_addError]
                          cases ok with
                          | false => rfl
                          | true =>
                            simp only [Bool.not_true, Bool.false_eq_true, if_false]
                            cases rdLP d2 with
                            | error e => rfl
                            | ok x =>
                              obtain ⟨attrs, t⟩ := x
                              simp only [foldGo_ap (F.v2AttrStep_ap m)]
                              cases foldGo (v2AttrStep m) r4 (lpSplit attrs).1 with
                              | error p => rfl
                              | ok x =>
                                obtain ⟨r5, d⟩ := x
                                simp only [Except.map, bind, Except.bind, ap_addError]
                                cases d with
                                | false => rfl
                                | true => cases (lpSplit attrs).2 <;> rfl

theorem v2Signers_ap (env : Env) (m : Int) (ss : List Bytes) : ∀ cd r,
    v2Signers env m ss cd (F.ap r) = (v2Signers env m ss cd r).map (fun x => (F.ap x.1, x.2)) := by
  induction ss with
  | nil => intro cd r; rfl
  | cons s ss ih =>
    intro cd r
    simp only [v2Signers, v2VerifySigner_ap]
    cases v2VerifySigner env m s cd r with
    | error p => rfl
    | ok x => exact ih _ _

theorem v2ParseSigners_ap (env : Env) (m : Int) (b : Bytes) (cd : Digests) (r : Core) :
    v2ParseSigners env m b cd (F.ap r) = (v2ParseSigners env m b cd r).map (fun x => (F.ap x.1, x.2)) := by
  unfold v2ParseSigners
  simp only [ap_addError]
  cases rdLP b with
  | error e => rfl
  | ok x =>
    obtain ⟨ss, t⟩ := x
    simp only [v2Signers_ap]
    cases v2Signers env m (lpSplit ss).1 cd r with
    | error p => rfl
    | ok x =>
      simp only [Except.map, bind, Except.bind, ap_addError, ap_certs]
      cases (lpSplit ss).2 with
      | some e => rfl
      | none => simp only; split <;> rfl

/-! ## v3 -/

/-- Apply the change to the state of the attribute loop. -/
def apA (s : AttrSt) : AttrSt := ⟨F.ap s.r, s.lineage, s.minSdkFound⟩

theorem v3AttrStep_ap (env : Env) (p : V3Params) (main : Cert) (s : AttrSt) (a : Bytes) :
    v3AttrStep env p main (F.apA s) a = (v3AttrStep env p main s a).map (fun x => (F.apA x.1, x.2)) := by
  unfold v3AttrStep apA
  simp only [ap_addError, ap_addWarning]
  cases rdU32 a with
  | none => rfl
  | some x =>
    obtain ⟨id, rest⟩ := x
    simp only
    split
    · simp only [bind, Except.bind]
      cases readLineage env rest with
      | error q => rfl
      | ok o =>
        cases o with
        | error e => rfl
        | ok nodes =>
          simp only
          split
          · rfl
          · cases subLineage nodes main with
            | none => rfl
            | some sub => simp only; split <;> rfl
    · split
      · split
        · cases rdU32 rest with
          | none => rfl
          | some y =>
            simp only
            split
            · split <;> rfl
            · rfl
        · rfl
      · split
        · split <;> rfl
        · rfl

theorem v3Attrs_ap (env : Env) (p : V3Params) (main : Cert) (d : Bytes) (r : Core) :
    v3Attrs env p main d (F.ap r) = (v3Attrs env p main d r).map (fun x => (F.ap x.1, x.2)) := by
  unfold v3Attrs
  simp only [ap_addError]
  cases rdLP d with
  | error e => rfl
  | ok x =>
    obtain ⟨attrs, t⟩ := x
    have := foldGo_ap (F.v3AttrStep_ap env p main) (lpSplit attrs).1 ⟨r, none, false⟩
    simp only [apA] at this
    simp only [this]
    cases foldGo (v3AttrStep env p main) ⟨r, none, false⟩ (lpSplit attrs).1 with
    | error q => rfl
    | ok x =>
      obtain ⟨st, dn⟩ := x
      simp only [Except.map, bind, Except.bind, ap_addError, ap_addWarning]
      cases dn with
      | false => rfl
      | true =>
        simp only [Bool.not_true, Bool.false_eq_true, if_false]
        cases (lpSplit attrs).2 with
        | some e => rfl
        | none => simp only; split <;> rfl

theorem v3SignerTail_ap (env : Env) (p : V3Params) (cs ds pk : Bytes) (best : Nat) (al : List Nat) (d4 : Bytes)
    (cd : Digests) (r : Core) :
    v3SignerTail env p cs ds pk best al d4 cd (F.ap r) =
      (v3SignerTail env p cs ds pk best al d4 cd r).map (fun x => (F.ap x.1, x.2)) := by
  unfold v3SignerTail
  simp only [parseCertificates_ap]
  obtain ⟨r1, mn⟩ := parseCertificates env cs pk r
  cases mn with
  | none => rfl
  | some c =>
    simp only [parseDigests_ap]
    cases parseDigests ds best al cd r1 with
    | error q => rfl
    | ok x =>
      obtain ⟨r2, cd', ok⟩ := x
      simp only [Except.map, bind, Except.bind]
      cases ok with
      | false => rfl
      | true =>
        simp only [Bool.not_true, Bool.false_eq_true, if_false, v3Attrs_ap]
        cases v3Attrs env p c d4 r2 <;> rfl

theorem v3SignerBody_ap (env : Env) (p : V3Params) (sd b1 : Bytes) (mn : Int) (cd : Digests) (r : Core) :
    v3SignerBody env p sd b1 mn cd (F.ap r) = (v3SignerBody env p sd b1 mn cd r).map (fun x => (F.ap x.1, x.2)) := by
  unfold v3SignerBody
  simp only [ap_addError]
  cases rdLP b1 with
  | error e => rfl
  | ok x =>
    obtain ⟨sigs, b2⟩ := x
    simp only [parseSignatures_ap]
    cases parseSignatures sigs r with
    | error q => rfl
    | ok x =>
      obtain ⟨r1, ctx, ok⟩ := x
      simp only [Except.map, bind, Except.bind]
      cases ok with
      | false => rfl
      | true =>
        cases ctx.best with
        | none => rfl
        | some best =>
          simp only [ap_addError]
          cases rdLP b2 with
          | error e => rfl
          | ok x =>
            obtain ⟨pk, t⟩ := x
            simp only [parsePublicKey_ap]
            cases parsePublicKey env pk best sd r1 with
            | error p => rfl
            | ok x =>
              obtain ⟨r2, ok⟩ := x
              simp only [Except.map, bind, Except.bind, ap_addError]
              cases ok with
              | false => rfl
              | true =>
                simp only [Bool.not_true, Bool.false_eq_true, if_false]
                cases rdLP sd with
                | error e => rfl
                | ok x =>
                  obtain ⟨ds, d1⟩ := x
                  simp only
                  cases rdLP d1 with
                  | error e => rfl
                  | ok x =>
                    obtain ⟨cs, d2⟩ := x
                    simp only
                    cases rdU32 d2 with
                    | none => rfl
                    | some x =>
                      obtain ⟨smin, d3⟩ := x
                      simp only
                      cases rdU32 d3 with
                      | none => rfl
                      | some x =>
                        obtain ⟨smax, d4⟩ := x
                        simp only [ap_if, v3SignerTail_ap]
                        rfl

theorem v3VerifySigner_ap (env : Env) (p : V3Params) (s : Bytes) (cd : Digests) (r : Core) :
    v3VerifySigner env p s cd (F.ap r) = (v3VerifySigner env p s cd r).map (fun x => (F.ap x.1, x.2)) := by
  unfold v3VerifySigner
  simp only [ap_addError]
  cases rdLP s with
  | error e => rfl
  | ok x =>
    obtain ⟨sd, b1⟩ := x
    simp only
    cases rdU32 b1 with
    | none => rfl
    | some x =>
      obtain ⟨mn, b2⟩ := x
      simp only
      cases rdU32 b2 with
      | none => rfl
      | some x =>
        obtain ⟨mx, b3⟩ := x
        simp only [ap_if, v3SignerBody_ap]
        generalize v3SignerBody env p sd b3 (toI32 mn) cd _ = y
        cases y <;> rfl

theorem v3Signers_ap (env : Env) (p : V3Params) (ss : List Bytes) : ∀ cd r acc,
    v3Signers env p ss cd (F.ap r) acc = (v3Signers env p ss cd r acc).map (fun x => (F.ap x.1, x.2)) := by
  induction ss with
  | nil => intro cd r acc; rfl
  | cons s ss ih =>
    intro cd r acc
    simp only [v3Signers, v3VerifySigner_ap]
    cases v3VerifySigner env p s cd r with
    | error p => rfl
    | ok x => exact ih _ _ _

theorem v3ParseSigners_ap (env : Env) (p : V3Params) (b : Bytes) (cd : Digests) (r : Core) :
    v3ParseSigners env p b cd (F.ap r) = (v3ParseSigners env p b cd r).map (fun x => (F.ap x.1, x.2)) := by
  unfold v3ParseSigners
  simp only [ap_addError]
  cases rdLP b with
  | error e => rfl
  | ok x =>
    obtain ⟨ss, t⟩ := x
    simp only [v3Signers_ap]
    cases v3Signers env p (lpSplit ss).1 cd r [] with
    | error q => rfl
    | ok x =>
      simp only [Except.map, bind, Except.bind, ap_addError]
      cases (lpSplit ss).2 <;> rfl

theorem v3FinalizeSorted_ap (a : Bool) (rot mn mx : Int) (l : List SignerInfo) (r : Core) :
    v3FinalizeSorted a rot mn mx l (F.ap r) = F.ap (v3FinalizeSorted a rot mn mx l r) := by
  unfold v3FinalizeSorted
  generalize finLoop {} l = st
  simp only
  generalize he : st.error = er
  cases er with
  | none =>
    simp only [ap_addError]
    by_cases hc : (st.firstMin > if a = true then mx else if mn < 28 then 28 else mn) ∨
        st.lastMax < if rot ≠ 0 then wrap32 (rot - 1) else mx
    · simp only [if_pos hc, ap_lineage]
      cases (r.addError .missingSdk).lineage with
      | some _ => rfl
      | none => cases consolidateLineages st.lineages <;> simp only [ap_addError] <;> rfl
    · simp only [if_neg hc, ap_lineage]
      cases r.lineage with
      | some _ => rfl
      | none => cases consolidateLineages st.lineages <;> simp only [ap_addError] <;> rfl
  | some e =>
    simp only [ap_addError]
    by_cases hc : (st.firstMin > if a = true then mx else if mn < 28 then 28 else mn) ∨
        st.lastMax < if rot ≠ 0 then wrap32 (rot - 1) else mx
    · simp only [if_pos hc, ap_lineage]
      cases ((r.addError e).addError .missingSdk).lineage with
      | some _ => rfl
      | none => cases consolidateLineages st.lineages <;> simp only [ap_addError] <;> rfl
    · simp only [if_neg hc, ap_lineage]
      cases (r.addError e).lineage with
      | some _ => rfl
      | none => cases consolidateLineages st.lineages <;> simp only [ap_addError] <;> rfl

theorem v3Finalize_ap (a : Bool) (rot mn mx : Int) (l : List SignerInfo) (r : Core) :
    v3Finalize a rot mn mx l (F.ap r) = F.ap (v3Finalize a rot mn mx l r) := v3FinalizeSorted_ap ..

theorem v31ParseSigners_ap (env : Env) (m : Int) (b : Bytes) (cd : Digests) (r : Core) (v3 : Option Core) :
    v31ParseSigners env m b cd (F.ap r) v3 = (v31ParseSigners env m b cd r v3).map (fun x => (F.ap x.1, x.2)) := by
  unfold v31ParseSigners
  simp only [v3ParseSigners_ap]
  cases v3ParseSigners env ⟨true, m, 0⟩ b [] r with
  | error q => rfl
  | ok x =>
    obtain ⟨r1, cd31, s31⟩ := x
    have hag : mget (F.ap r1).extraBlocks blockIdSchemeV3 = mget r1.extraBlocks blockIdSchemeV3 := F.agree3 _
    simp only [Except.map, bind, Except.bind, ap_addError, hag]
    cases mget r1.extraBlocks blockIdSchemeV3 with
    | none => rfl
    | some v3b =>
      simp only
      generalize v3ParseSigners env ⟨false, m, rotationMinSdk s31⟩ v3b cd _ = y
      cases y <;> rfl

theorem v31Finalize_ap (mn mx : Int) (fin : FinState) (r : Core) (v3 : Option Core) :
    v31Finalize mn mx fin (F.ap r) v3 = (F.ap (v31Finalize mn mx fin r v3).1, (v31Finalize mn mx fin r v3).2) := by
  unfold v31Finalize
  simp only [v3Finalize_ap]
  cases v3 with
  | none => rfl
  | some v => simp only [ap, List.append_assoc]

theorem extractCerts_ap (env : Env) (s : Scheme) (m : Int) (b : Bytes) (r : Core) (v3 : Option Core) :
    extractCerts env s m b (F.ap r) v3 = (extractCerts env s m b r v3).map (fun x => (F.ap x.1, x.2)) := by
  cases s with
  | v2 =>
    simp only [extractCerts, v2ParseSigners_ap]
    cases v2ParseSigners env m b [] r <;> rfl
  | v3 =>
    simp only [extractCerts, v3ParseSigners_ap]
    cases v3ParseSigners env ⟨false, m, 0⟩ b [] r <;> rfl
  | v31 => exact v31ParseSigners_ap ..

theorem finalizeScheme_ap (s : Scheme) (mn mx : Int) (fin : FinState) (r : Core) (v3 : Option Core) :
    finalizeScheme s mn mx fin (F.ap r) v3 =
      (F.ap (finalizeScheme s mn mx fin r v3).1, (finalizeScheme s mn mx fin r v3).2) := by
  cases s with
  | v2 => rfl
  | v3 => simp only [finalizeScheme, v3Finalize_ap]
  | v31 => exact v31Finalize_ap ..

theorem verifyIntegrity_ap (env : Env) (file : Bytes) (f : Found) (m : Digests) (r : Core) :
    verifyIntegrity env file f m (F.ap r) = (verifyIntegrity env file f m r).map (fun x => (F.ap x.1, x.2)) := by
  unfold verifyIntegrity
  simp only [ap_addError]
  cases computeContentDigests env ((env.cdOrder m).map (·.1)) (sections file f) with
  | error q => rfl
  | ok x =>
    cases x with
    | error e => rfl
    | ok a => simp [bind, Except.bind, Except.map, ap]

theorem verifyScheme_ap (env : Env) (file : Bytes) (f : Found) (s : Scheme) (mn mx : Int) (b : Bytes) (r : Core)
    (v3 : Option Core) :
    verifyScheme env file f s mn mx b (F.ap r) v3 =
      (verifyScheme env file f s mn mx b r v3).map (fun x => (F.ap x.1, x.2)) := by
  unfold verifyScheme
  simp only [extractCerts_ap]
  cases extractCerts env s mx b r v3 with
  | error q => rfl
  | ok x =>
    obtain ⟨r1, v3', cd, fin⟩ := x
    simp only [Except.map, bind, Except.bind, ap_addError, ap_certs]
    split
    · rfl
    · split
      · rfl
      · simp only [verifyIntegrity_ap]
        cases verifyIntegrity env file f cd r1 with
        | error q => rfl
        | ok x =>
          obtain ⟨r2, ok⟩ := x
          simp only [Except.map, bind, Except.bind]
          cases ok with
          | false => rfl
          | true => simp only [finalizeScheme_ap]; rfl

end Frame
end Apk
