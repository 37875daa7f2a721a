import Verif.Proofs.Frame
import Verif.Proofs.IntegrityEq
/-! # Two runs of the verifier on states that differ only in what it cannot see -/
namespace Apk
set_option linter.unusedSimpArgs false

/-- A relation on lists compatible with appending. -/
structure AppRel {α : Type} (P : List α → List α → Prop) : Prop where
  refl : ∀ l, P l l
  app : ∀ {a b c d}, P a b → P c d → P (a ++ c) (b ++ d)

theorem AppRel.eq {α : Type} : AppRel (α := α) Eq := ⟨fun _ => rfl, fun h1 h2 => by rw [h1, h2]⟩
theorem AppRel.perm {α : Type} : AppRel (α := α) List.Perm := ⟨List.Perm.refl, List.Perm.append⟩
theorem AppRel.filt {α : Type} (p : α → Bool) : AppRel (α := α) (fun a b => a.filter p = b.filter p) :=
  ⟨fun _ => rfl, fun h1 h2 => by simp [h1, h2]⟩

/-- Two results that agree on everything but warnings (related by `PW`), errors (`PE`) and extra blocks other than
    scheme blocks. -/
structure CoreSim (PW : List W → List W → Prop) (PE : List E → List E → Prop) (r r' : Core) : Prop where
  certs : r.certs = r'.certs
  schemeId : r.schemeId = r'.schemeId
  lineage : r.lineage = r'.lineage
  x2 : mget r.extraBlocks blockIdSchemeV2 = mget r'.extraBlocks blockIdSchemeV2
  x3 : mget r.extraBlocks blockIdSchemeV3 = mget r'.extraBlocks blockIdSchemeV3
  x31 : mget r.extraBlocks blockIdSchemeV31 = mget r'.extraBlocks blockIdSchemeV31
  w : PW r.warnings r'.warnings
  e : PE r.errors r'.errors

/-- A common core and two frames. -/
def Framed (PW : List W → List W → Prop) (PE : List E → List E → Prop) (r r' : Core) : Prop :=
  ∃ (r0 : Core) (F F' : Frame), r = F.ap r0 ∧ r' = F'.ap r0 ∧ PW F.w F'.w ∧ PE F.es F'.es

theorem CoreSim.framed {PW : List W → List W → Prop} {PE : List E → List E → Prop} {r r' : Core} (h : CoreSim PW PE r r') :
    Framed PW PE r r' := by
  refine ⟨⟨r.certs, r.schemeId, r.lineage, r.extraBlocks, [], []⟩,
    ⟨r.warnings, r.errors, id, fun _ => rfl, fun _ => rfl, fun _ => rfl⟩,
    ⟨r'.warnings, r'.errors, fun l => if l = r.extraBlocks then r'.extraBlocks else l, ?_, ?_, ?_⟩, ?_, ?_, h.w, h.e⟩
  · intro l; split
    · rename_i hh; rw [hh, h.x2]
    · rfl
  · intro l; split
    · rename_i hh; rw [hh, h.x3]
    · rfl
  · intro l; split
    · rename_i hh; rw [hh, h.x31]
    · rfl
  · simp [Frame.ap]
  · simp [Frame.ap, h.certs, h.schemeId, h.lineage]

theorem Framed.sim {PW : List W → List W → Prop} {PE : List E → List E → Prop} (hW : AppRel PW) (hE : AppRel PE)
    {r r' : Core} (h : Framed PW PE r r') : CoreSim PW PE r r' := by
  obtain ⟨r0, F, F', rfl, rfl, h1, h2⟩ := h
  exact ⟨rfl, rfl, rfl, (F.agree2 _).trans (F'.agree2 _).symm, (F.agree3 _).trans (F'.agree3 _).symm,
    (F.agree31 _).trans (F'.agree31 _).symm, hW.app h1 (hW.refl _), hE.app h2 (hE.refl _)⟩

/-- Related outcomes of two runs: the same panic or related results. -/
def GoSim {α : Type} (Q : α → α → Prop) : Go α → Go α → Prop
  | .error p, .error q => p = q
  | .ok a, .ok b => Q a b
  | _, _ => False

/-- Two verification settings (environment, file, layout) whose integrity checks are related. -/
structure SameInt (PE : List E → List E → Prop) (env env' : Env) (file file' : Bytes) (f f' : Found) : Prop where
  extract : ∀ s m b r v3, extractCerts env' s m b r v3 = extractCerts env s m b r v3
  integ : ∀ m : Digests, m ≠ [] → ∀ r : Core, ∃ es es' ok, PE es es' ∧
    (verifyIntegrity env file f m r = .error .explicit ∧ verifyIntegrity env' file' f' m r = .error .explicit ∨
     verifyIntegrity env file f m r = .ok ({ r with errors := r.errors ++ es }, ok) ∧
      verifyIntegrity env' file' f' m r = .ok ({ r with errors := r.errors ++ es' }, ok))

section
variable {PW : List W → List W → Prop} {PE : List E → List E → Prop} (hW : AppRel PW) (hE : AppRel PE)
  (hEnil : ∀ {a b}, PE a b → (a = [] ↔ b = [])) (hWE : ∀ {a b}, PE a b → PW (a.map W.v3Error) (b.map W.v3Error))
  {env env' : Env} {file file' : Bytes} {f f' : Found} (hI : SameInt PE env env' file file' f f')

/-- Related results of a scheme verification. -/
def ResSim (PW : List W → List W → Prop) (PE : List E → List E → Prop) (x y : Core × Option Core × Digests) : Prop :=
  CoreSim PW PE x.1 y.1 ∧ x.2 = y.2

include hW hE hI in
theorem verifyScheme_sim {s : Scheme} {mn mx : Int} {b : Bytes} {r r' : Core} {v3 : Option Core} (h : CoreSim PW PE r r') :
    GoSim (ResSim PW PE) (verifyScheme env file f s mn mx b r v3) (verifyScheme env' file' f' s mn mx b r' v3) := by
  obtain ⟨r0, F, F', rfl, rfl, h1, h2⟩ := h.framed
  unfold verifyScheme
  rw [hI.extract, F.extractCerts_ap, F'.extractCerts_ap]
  cases extractCerts env s mx b r0 v3 with
  | error q => rfl
  | ok x =>
    obtain ⟨r1, v3', cd, fin⟩ := x
    simp only [Except.map, bind, Except.bind, Frame.ap_addError, Frame.ap_certs]
    split
    · exact ⟨Framed.sim hW hE ⟨_, F, F', rfl, rfl, h1, h2⟩, rfl⟩
    · split
      · exact ⟨Framed.sim hW hE ⟨_, F, F', rfl, rfl, h1, h2⟩, rfl⟩
      · rename_i hne
        rw [F.verifyIntegrity_ap, F'.verifyIntegrity_ap]
        obtain ⟨es, es', ok, hes, hh⟩ := hI.integ cd (by intro hc; exact hne (by rw [hc]; rfl)) r1
        rcases hh with ⟨e1, e2⟩ | ⟨e1, e2⟩
        · rw [e1, e2]; rfl
        · rw [e1, e2]
          simp only [Except.map, bind, Except.bind]
          have key : Framed PW PE (F.ap { r1 with errors := r1.errors ++ es }) (F'.ap { r1 with errors := r1.errors ++ es' }) := by
            refine ⟨{ r1 with errors := [] }, { F with es := F.es ++ r1.errors ++ es }, { F' with es := F'.es ++ r1.errors ++ es' },
              ?_, ?_, h1, hE.app (hE.app h2 (hE.refl _)) hes⟩
            · simp [Frame.ap]
            · simp [Frame.ap]
          cases ok with
          | false => exact ⟨key.sim hW hE, rfl⟩
          | true =>
            obtain ⟨r2, G, G', k1, k2, k3, k4⟩ := key
            rw [k1, k2]
            simp only [Bool.not_true, Bool.false_eq_true, if_false, Frame.finalizeScheme_ap]
            exact ⟨Framed.sim hW hE ⟨_, G, G', rfl, rfl, k3, k4⟩, rfl⟩

/-- Block maps that agree on the scheme blocks. -/
structure BlocksSim (bs bs' : List (Nat × Bytes)) : Prop where
  b2 : mget bs blockIdSchemeV2 = mget bs' blockIdSchemeV2
  b3 : mget bs blockIdSchemeV3 = mget bs' blockIdSchemeV3
  b31 : mget bs blockIdSchemeV31 = mget bs' blockIdSchemeV31

theorem BlocksSim.pick {bs bs' : List (Nat × Bytes)} (h : BlocksSim bs bs') : pickScheme bs = pickScheme bs' := by
  unfold pickScheme; rw [h.b2, h.b3, h.b31]

theorem CoreSim.setScheme {PW : List W → List W → Prop} {PE : List E → List E → Prop} {r r' : Core}
    (h : CoreSim PW PE r r') (n : Nat) : CoreSim PW PE { r with schemeId := n } { r' with schemeId := n } :=
  ⟨h.certs, rfl, h.lineage, h.x2, h.x3, h.x31, h.w, h.e⟩

include hW hE hI in
theorem pickAndVerify_sim {bs bs' : List (Nat × Bytes)} (hb : BlocksSim bs bs') {mn mx : Int} {r r' : Core}
    {v3 : Option Core} (h : CoreSim PW PE r r') :
    GoSim (ResSim PW PE) (pickAndVerify env file f bs mn mx r v3) (pickAndVerify env' file' f' bs' mn mx r' v3) := by
  unfold pickAndVerify
  rw [← hb.pick]
  split
  · exact ⟨h.setScheme _, rfl⟩
  · cases pickScheme bs with
    | none =>
      have := h.setScheme 1
      exact ⟨⟨this.certs, this.schemeId, this.lineage, this.x2, this.x3, this.x31, this.w, hE.app this.e (hE.refl _)⟩, rfl⟩
    | some x => exact verifyScheme_sim hW hE hI (h.setScheme _)

include hW hE hI hEnil hWE in
theorem withFallback_sim {bs bs' : List (Nat × Bytes)} (hb : BlocksSim bs bs') {mn mx : Int}
    {x x' : Core × Option Core × Digests} (h : ResSim PW PE x x') :
    GoSim (ResSim PW PE) (withFallback env file f bs mn mx x) (withFallback env' file' f' bs' mn mx x') := by
  obtain ⟨r, v3, cd⟩ := x
  obtain ⟨r', v3', cd'⟩ := x'
  obtain ⟨hc, h2⟩ := h
  simp only [Prod.mk.injEq] at h2
  obtain ⟨rfl, rfl⟩ := h2
  unfold withFallback
  simp only at hc ⊢
  have hcond : (r.errors ≠ [] ∧ r.schemeId ≥ 3 ∧ mn < 28 ∧ (mget bs blockIdSchemeV2).isSome = true) ↔
      (r'.errors ≠ [] ∧ r'.schemeId ≥ 3 ∧ mn < 28 ∧ (mget bs' blockIdSchemeV2).isSome = true) := by
    rw [← hc.schemeId, ← hb.b2, Ne, hEnil hc.e]
  by_cases hy : (r.errors ≠ [] ∧ r.schemeId ≥ 3 ∧ mn < 28 ∧ (mget bs blockIdSchemeV2).isSome = true)
  · rw [if_pos hy, if_pos (hcond.1 hy)]
    apply pickAndVerify_sim hW hE hI
    · constructor <;> simp only [mget_mdel, hb.b2, hb.b3, hb.b31]
    · rw [← hb.b3]
      cases mget bs blockIdSchemeV3 with
      | none => exact ⟨hc.certs, hc.schemeId, hc.lineage, hc.x2, hc.x3, hc.x31, hW.app hc.w (hWE hc.e), hE.refl _⟩
      | some b =>
        refine ⟨hc.certs, hc.schemeId, hc.lineage, ?_, ?_, ?_, hW.app hc.w (hWE hc.e), hE.refl _⟩ <;>
          simp only [mget_mset, hc.x2, hc.x3, hc.x31]
  · rw [if_neg hy, if_neg (fun h => hy (hcond.2 h))]
    exact ⟨hc, rfl⟩

end

/-- The same environment with other map iteration orders. -/
def Env.withOrder (env : Env) (mo : List (Nat × Bytes) → List (Nat × Bytes)) (hmo : ∀ l, (mo l).Perm l)
    (co : List (CD × Bytes) → List (CD × Bytes)) (hco : ∀ l, (co l).Perm l) : Env :=
  { env with mapOrder := mo, mapOrder_perm := hmo, cdOrder := co, cdOrder_perm := hco }

section
variable (env : Env) (mo : List (Nat × Bytes) → List (Nat × Bytes)) (hmo : ∀ l, (mo l).Perm l)
  (co : List (CD × Bytes) → List (CD × Bytes)) (hco : ∀ l, (co l).Perm l)

theorem verifySignature_order : verifySignature (env.withOrder mo hmo co hco) = verifySignature env := by
  funext k a d s; unfold verifySignature; rfl

theorem parsePublicKey_order : parsePublicKey (env.withOrder mo hmo co hco) = parsePublicKey env := by
  funext pk b sd r; unfold parsePublicKey; rw [verifySignature_order]; rfl

theorem certLoop_order : certLoop (env.withOrder mo hmo co hco) = certLoop env := by
  funext r a cs
  induction cs generalizing r a with
  | nil => rfl
  | cons c cs ih => simp only [certLoop, ih]; rfl

theorem parseCertificates_order : parseCertificates (env.withOrder mo hmo co hco) = parseCertificates env := by
  funext c pk r; unfold parseCertificates; rw [certLoop_order]

theorem v2VerifySigner_order : v2VerifySigner (env.withOrder mo hmo co hco) = v2VerifySigner env := by
  funext m s cd r; unfold v2VerifySigner; rw [parsePublicKey_order, parseCertificates_order]

theorem v2Signers_order : v2Signers (env.withOrder mo hmo co hco) = v2Signers env := by
  funext m ss cd r
  induction ss generalizing cd r with
  | nil => rfl
  | cons s ss ih => simp only [v2Signers, v2VerifySigner_order, ih]

theorem v2ParseSigners_order : v2ParseSigners (env.withOrder mo hmo co hco) = v2ParseSigners env := by
  funext m b cd r; unfold v2ParseSigners; rw [v2Signers_order]

theorem lineageStep_order (parse : Bytes → Option Cert) :
    lineageStep (env.withOrder mo hmo co hco) parse = lineageStep env parse := by
  funext n b; unfold lineageStep; rw [verifySignature_order]

theorem lineageLoop_order (parse : Bytes → Option Cert) :
    lineageLoop (env.withOrder mo hmo co hco) parse = lineageLoop env parse := by
  funext n bs
  induction bs generalizing n with
  | nil => rfl
  | cons b bs ih => simp only [lineageLoop, lineageStep_order, ih]

theorem readLineage_order : readLineage (env.withOrder mo hmo co hco) = readLineage env := by
  funext b; unfold readLineage; rw [lineageLoop_order]; rfl

theorem v3AttrStep_order : v3AttrStep (env.withOrder mo hmo co hco) = v3AttrStep env := by
  funext p m st a; unfold v3AttrStep; rw [readLineage_order]

theorem v3Attrs_order : v3Attrs (env.withOrder mo hmo co hco) = v3Attrs env := by
  funext p m d r; unfold v3Attrs; rw [v3AttrStep_order]

theorem v3SignerTail_order : v3SignerTail (env.withOrder mo hmo co hco) = v3SignerTail env := by
  funext p c d pk b al d4 cd r; unfold v3SignerTail; rw [v3Attrs_order, parseCertificates_order]

theorem v3SignerBody_order : v3SignerBody (env.withOrder mo hmo co hco) = v3SignerBody env := by
  funext p sd b1 mn cd r; unfold v3SignerBody; rw [v3SignerTail_order, parsePublicKey_order]

theorem v3VerifySigner_order : v3VerifySigner (env.withOrder mo hmo co hco) = v3VerifySigner env := by
  funext p s cd r; unfold v3VerifySigner; rw [v3SignerBody_order]

theorem v3Signers_order : v3Signers (env.withOrder mo hmo co hco) = v3Signers env := by
  funext p ss cd r acc
  induction ss generalizing cd r acc with
  | nil => rfl
  | cons s ss ih => simp only [v3Signers, v3VerifySigner_order, ih]

theorem v3ParseSigners_order : v3ParseSigners (env.withOrder mo hmo co hco) = v3ParseSigners env := by
  funext p b cd r; unfold v3ParseSigners; rw [v3Signers_order]

theorem extractCerts_order : extractCerts (env.withOrder mo hmo co hco) = extractCerts env := by
  funext s m b r v3
  unfold extractCerts v31ParseSigners
  rw [v2ParseSigners_order, v3ParseSigners_order]

end

end Apk
