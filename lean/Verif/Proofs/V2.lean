import Verif.Proofs.Signer
/-! # v2 signers -/
namespace Apk

/-- The block with this id is present in `ExtraBlocks`. -/
def Present (r : Core) (bid : Nat) : Prop := (mget r.extraBlocks bid).isSome = true

theorem Core.Ext.present {r r' : Core} (h : r.Ext r') : Present r' = Present r := by
  unfold Present; rw [h.extra]

theorem schemeIdToBlockId_eq {v : Nat} (hv : v < 2 ^ 32) : schemeIdToBlockId (toI32 v) = schemeBlock v := by
  have key : ∀ k : Nat, k < 2 ^ 31 → (toI32 v = (k : Int) ↔ v = k) := by
    intro k hk
    constructor
    · intro h
      exact toI32_inj hv (by omega) (by rw [h, toI32_of_lt hk])
    · rintro rfl; exact toI32_of_lt hk
  have k2 := key 2 (by omega)
  have k3 := key 3 (by omega)
  have k31 := key 31 (by omega)
  unfold schemeIdToBlockId schemeBlock
  simp only [Int.cast_ofNat_Int] at k2 k3 k31
  by_cases h2 : v = 2
  · rw [if_pos (k2.2 h2), if_pos h2]; rfl
  · rw [if_neg (fun h => h2 (k2.1 h)), if_neg h2]
    by_cases h3 : v = 3
    · rw [if_pos (k3.2 h3), if_pos h3]; rfl
    · rw [if_neg (fun h => h3 (k3.1 h)), if_neg h3]
      by_cases h31 : v = 31
      · rw [if_pos (k31.2 h31), if_pos h31]; rfl
      · rw [if_neg (fun h => h31 (k31.1 h)), if_neg h31]

theorem rdU32_eq {b : Bytes} (h : 4 ≤ b.length) : rdU32 b = some (leNat (b.take 4), b.drop 4) := by
  unfold rdU32; rw [if_neg (by omega)]

theorem take4_lt (b : Bytes) : leNat (b.take 4) < 2 ^ 32 := by
  have := leNat_lt (b.take 4)
  have h : (b.take 4).length ≤ 4 := by rw [List.length_take]; omega
  calc leNat (b.take 4) < 256 ^ (b.take 4).length := this
    _ ≤ 256 ^ 4 := Nat.pow_le_pow_right (by omega) h
    _ = 2 ^ 32 := by decide

theorem v2AttrStep_spec (maxSdk : Int) (r : Core) (attr : Bytes) :
    (V2AttrOK maxSdk (Present r) attr → ∃ ws, v2AttrStep maxSdk r attr = .ok ({ r with warnings := r.warnings ++ ws }, true)) ∧
    (¬ V2AttrOK maxSdk (Present r) attr → ∃ r' b, v2AttrStep maxSdk r attr = .ok (r', b) ∧ r.Ext r' ∧ r.Failed r') := by
  unfold v2AttrStep V2AttrOK
  by_cases h4 : 4 ≤ attr.length
  · rw [rdU32_eq h4]
    simp only [h4, true_and]
    by_cases hid : leNat (attr.take 4) = 0xbeeff00d
    · simp only [hid, if_true, true_implies]
      by_cases hs : 28 ≤ maxSdk
      · have hs' : supportsSigV3 maxSdk = true := by simp [supportsSigV3, hs]
        simp only [hs', hs, true_implies, Bool.not_true, Bool.false_eq_true, if_false]
        by_cases h8 : 8 ≤ attr.length
        · rw [rdU32_eq (by rw [List.length_drop]; omega)]
          simp only [h8, true_and]
          rw [schemeIdToBlockId_eq (take4_lt _)]
          cases hb : schemeBlock (leNat ((attr.drop 4).take 4)) with
          | none => simp only [reduceCtorEq, false_and, exists_false, false_implies, not_false_eq_true, true_implies, true_and]
                    exact ⟨_, _, rfl, Core.Ext.addError _ _, Core.Failed.addError _ _⟩
          | some bid =>
            simp only [Option.some.injEq, exists_eq_left']
            cases hm : mget r.extraBlocks bid with
            | none =>
              have : ¬ Present r bid := by simp [Present, hm]
              simp only [this, false_implies, not_false_eq_true, true_implies, true_and]
              exact ⟨_, _, rfl, Core.Ext.addError _ _, Core.Failed.addError _ _⟩
            | some _ =>
              have : Present r bid := by simp [Present, hm]
              simp only [this, true_implies, not_true_eq_false, false_implies, and_true]
              exact ⟨[], by simp⟩
        · rw [rdU32_none.2 (by rw [List.length_drop]; omega)]
          simp only [h8, false_and, false_implies, not_false_eq_true, true_implies, true_and]
          exact ⟨_, _, rfl, Core.Ext.addError _ _, Core.Failed.addError _ _⟩
      · have hs' : supportsSigV3 maxSdk = false := by simp [supportsSigV3]; omega
        simp only [hs', hs, false_implies, Bool.not_false, if_true, true_implies, not_true_eq_false, and_true]
        exact ⟨[], by simp⟩
    · simp only [hid, if_false, false_implies, true_implies, not_true_eq_false, and_true]
      exact ⟨_, rfl⟩
  · rw [rdU32_none.2 (by omega)]
    simp only [h4, false_and, false_implies, not_false_eq_true, true_implies, true_and]
    exact ⟨_, _, rfl, Core.Ext.addError _ _, Core.Failed.addError _ _⟩

theorem v2AttrFold_any (maxSdk : Int) (items : List Bytes) : ∀ r : Core,
    ∃ r' b, foldGo (v2AttrStep maxSdk) r items = .ok (r', b) ∧ r.Ext r' := by
  induction items with
  | nil => intro r; exact ⟨r, true, rfl, Core.Ext.refl _⟩
  | cons x items ih =>
    intro r
    rw [foldGo]
    have : ∃ r' b, v2AttrStep maxSdk r x = .ok (r', b) ∧ r.Ext r' := by
      obtain ⟨h1, h2⟩ := v2AttrStep_spec maxSdk r x
      by_cases h : V2AttrOK maxSdk (Present r) x
      · obtain ⟨ws, hw⟩ := h1 h
        exact ⟨_, _, hw, ⟨[], by simp⟩, rfl, rfl, rfl, ⟨[], by simp⟩, ⟨ws, rfl⟩⟩
      · obtain ⟨r', b, h3, h4, _⟩ := h2 h
        exact ⟨r', b, h3, h4⟩
    obtain ⟨r1, b, h1, h2⟩ := this
    rw [h1]
    cases b with
    | false => exact ⟨r1, false, rfl, h2⟩
    | true =>
      obtain ⟨r', b, h3, h4⟩ := ih r1
      exact ⟨r', b, h3, h2.trans h4⟩

theorem v2AttrFold_spec (maxSdk : Int) (items : List Bytes) : ∀ r : Core,
    ((∀ x ∈ items, V2AttrOK maxSdk (Present r) x) → ∃ ws, foldGo (v2AttrStep maxSdk) r items =
      .ok ({ r with warnings := r.warnings ++ ws }, true)) ∧
    ((¬ ∀ x ∈ items, V2AttrOK maxSdk (Present r) x) → ∃ r' b, foldGo (v2AttrStep maxSdk) r items = .ok (r', b) ∧
      r.Ext r' ∧ r.Failed r') := by
  induction items with
  | nil => intro r; exact ⟨fun _ => ⟨[], by simp [foldGo]⟩, fun h => absurd (by simp) h⟩
  | cons x items ih =>
    intro r
    simp only [List.mem_cons, forall_eq_or_imp]
    obtain ⟨h1, h2⟩ := v2AttrStep_spec maxSdk r x
    rw [foldGo]
    by_cases hx : V2AttrOK maxSdk (Present r) x
    · simp only [hx, true_and]
      obtain ⟨ws, hw⟩ := h1 hx
      rw [hw]
      obtain ⟨i1, i2⟩ := ih { r with warnings := r.warnings ++ ws }
      constructor
      · intro h
        obtain ⟨ws', hw'⟩ := i1 h
        exact ⟨ws ++ ws', by simp only [bind, Except.bind, if_true]; rw [hw', List.append_assoc]⟩
      · intro h
        obtain ⟨r', b, q1, q2, q3⟩ := i2 h
        have x1 : r.Ext { r with warnings := r.warnings ++ ws } := ⟨⟨[], by simp⟩, rfl, rfl, rfl, ⟨[], by simp⟩, ⟨ws, rfl⟩⟩
        exact ⟨r', b, q1, x1.trans q2, q3.of_eq rfl⟩
    · simp only [hx, false_and, false_implies, not_false_eq_true, true_implies, true_and]
      obtain ⟨r1, b, q1, q2, q3⟩ := h2 hx
      rw [q1]
      cases b with
      | false => exact ⟨r1, false, rfl, q2, q3⟩
      | true =>
        obtain ⟨r', b, q4, q5⟩ := v2AttrFold_any maxSdk items r1
        exact ⟨r', b, q4, q2.trans q5, q3.trans_ext q5.errors⟩

theorem V2SignerOK.strength {env : Env} {maxSdk : Int} {present : Nat → Prop} {signer : Bytes} {chain : List Cert} {a : Nat}
    {d : Bytes} (h : V2SignerOK env maxSdk present signer chain a d) : 0 < algStrength a := by
  obtain ⟨_, _, _, _, _, _, _, _, _, _, _, _, _, _, _, _, _, _, _, _, _, _, ⟨_, _, hs⟩, _⟩ := h
  exact hs.mem.2

/-- A conforming signer is accepted, its chain appended, its digest recorded. -/
theorem v2VerifySigner_ok {env : Env} {maxSdk : Int} {signer : Bytes} {chain : List Cert} {a : Nat} {d : Bytes} {r : Core}
    {cd : Digests} (h : V2SignerOK env maxSdk (Present r) signer chain a d) (hagr : Agrees cd (algDigest a) d) :
    ∃ ws, v2VerifySigner env maxSdk signer cd r =
      .ok ({ r with certs := r.certs ++ [chain], warnings := r.warnings ++ ws }, mset cd (algDigest a) d) := by
  have hstr := h.strength
  obtain ⟨signedData, sigs, pk, tail, sigRecs, sig, digests, certs, attrs, tail', digestRecs, attrRecs, main, more,
    h1, s1, s2, s3, h2, s4, s5, s6, hsig, hkey, hcert, hchain, hdig, halg, hattr, hattrs⟩ := h
  unfold v2VerifySigner
  rw [h1, List.append_assoc, List.append_assoc, rdLP_lp _ _ s1]
  simp only
  rw [rdLP_lp _ _ s2]
  simp only
  rw [parseSignatures_ok hsig]
  simp only [bind, Except.bind]
  rw [rdLP_lp _ _ s3]
  simp only
  rw [parsePublicKey_ok hkey]
  simp only [Bool.not_true, Bool.false_eq_true, if_false]
  have e1 : rdLP signedData = .ok (digests, lp certs ++ (lp attrs ++ tail')) := by
    rw [h2, List.append_assoc, List.append_assoc, rdLP_lp _ _ s4]
  rw [e1]
  simp only
  rw [rdLP_lp _ _ s5]
  simp only
  rw [parseCertificates_ok hcert]
  simp only
  rw [← halg, parseDigests_ok hdig hstr hagr]
  simp only [Bool.not_true, Bool.false_eq_true, if_false]
  rw [rdLP_lp _ _ s6]
  simp only
  rw [(lpSplit_ok_iff attrs attrRecs).2 ⟨hattr.2, hattr.1⟩]
  simp only
  obtain ⟨ws, hw⟩ := (v2AttrFold_spec maxSdk attrRecs
    { r with certs := r.certs ++ [main :: more], warnings := r.warnings ++ sigWarnings sigRecs }).1 hattrs
  refine ⟨sigWarnings sigRecs ++ ws, ?_⟩
  simp only [hw, Bool.not_true, Bool.false_eq_true, if_false, List.append_assoc, hchain]

/-- Any other signer adds an error (unless checking its signature panics). -/
theorem v2VerifySigner_fail {env : Env} {maxSdk : Int} {signer : Bytes} {r : Core} {cd : Digests}
    (h : ¬ ∃ chain a d, V2SignerOK env maxSdk (Present r) signer chain a d ∧ Agrees cd (algDigest a) d)
    {r' : Core} {cd' : Digests} (hv : v2VerifySigner env maxSdk signer cd r = .ok (r', cd')) : r.Ext r' ∧ r.Failed r' := by
  have fin : ∀ {e : E} {cd0 : Digests}, (.ok (r.addError e, cd0) : Go (Core × Digests)) = .ok (r', cd') → r.Ext r' ∧ r.Failed r' := by
    intro e cd0 h
    simp only [Except.ok.injEq, Prod.mk.injEq] at h
    obtain ⟨rfl, rfl⟩ := h
    exact ⟨Core.Ext.addError _ _, Core.Failed.addError _ _⟩
  have fin' : ∀ {r1 : Core} {e : E} {cd0 : Digests}, r.Ext r1 → (.ok (r1.addError e, cd0) : Go (Core × Digests)) = .ok (r', cd') →
      r.Ext r' ∧ r.Failed r' := by
    intro r1 e cd0 hx h
    simp only [Except.ok.injEq, Prod.mk.injEq] at h
    obtain ⟨rfl, rfl⟩ := h
    exact ⟨hx.trans (Core.Ext.addError _ _), hx.trans_failed (Core.Failed.addError _ _)⟩
  have fin'' : ∀ {r1 : Core} {cd0 : Digests}, r.Ext r1 → r.Failed r1 → (.ok (r1, cd0) : Go (Core × Digests)) = .ok (r', cd') →
      r.Ext r' ∧ r.Failed r' := by
    intro r1 cd0 hx hf h
    simp only [Except.ok.injEq, Prod.mk.injEq] at h
    obtain ⟨rfl, rfl⟩ := h
    exact ⟨hx, hf⟩
  unfold v2VerifySigner at hv
  cases e1 : rdLP signer with
  | error e => rw [e1] at hv; exact fin hv
  | ok p1 =>
    obtain ⟨signedData, b1⟩ := p1
    rw [e1] at hv; simp only at hv
    cases e2 : rdLP b1 with
    | error e => rw [e2] at hv; exact fin hv
    | ok p2 =>
      obtain ⟨sigs, b2⟩ := p2
      rw [e2] at hv; simp only at hv
      by_cases hsl : ∃ recs a s, SigList sigs recs a s
      · obtain ⟨sigRecs, a, sig, hsl⟩ := hsl
        rw [parseSignatures_ok hsl] at hv
        simp only [bind, Except.bind] at hv
        have x1 : r.Ext { r with warnings := r.warnings ++ sigWarnings sigRecs } :=
          ⟨⟨[], by simp⟩, rfl, rfl, rfl, ⟨[], by simp⟩, ⟨_, rfl⟩⟩
        generalize hr1 : ({ r with warnings := r.warnings ++ sigWarnings sigRecs } : Core) = r1 at hv x1
        cases e3 : rdLP b2 with
        | error e => rw [e3] at hv; exact fin' x1 hv
        | ok p3 =>
          obtain ⟨pk, tail⟩ := p3
          rw [e3] at hv; simp only at hv
          by_cases hk : KeyAccepts env pk a signedData sig
          · rw [parsePublicKey_ok hk] at hv
            simp only [Bool.not_true, Bool.false_eq_true, if_false] at hv
            cases e4 : rdLP signedData with
            | error e => rw [e4] at hv; exact fin' x1 hv
            | ok p4 =>
              obtain ⟨digests, d1⟩ := p4
              rw [e4] at hv; simp only at hv
              cases e5 : rdLP d1 with
              | error e => rw [e5] at hv; exact fin' x1 hv
              | ok p5 =>
                obtain ⟨certs, d2⟩ := p5
                rw [e5] at hv; simp only at hv
                by_cases hc : ∃ main more, CertList env certs pk main more
                · obtain ⟨main, more, hc⟩ := hc
                  rw [parseCertificates_ok hc] at hv
                  simp only at hv
                  have x2 : r.Ext { r1 with certs := r1.certs ++ [main :: more] } :=
                    x1.trans ⟨⟨_, rfl⟩, rfl, rfl, rfl, ⟨[], by simp⟩, ⟨[], by simp⟩⟩
                  generalize hr2 : ({ r1 with certs := r1.certs ++ [main :: more] } : Core) = r2 at hv x2
                  have hsel := hsl.2.2.mem
                  by_cases hd : ∃ recs d, DigestList digests recs a d ∧ recs.map recAlg = sigRecs.map recAlg ∧ Agrees cd (algDigest a) d
                  · obtain ⟨recs, d, hdl, hal, hagr⟩ := hd
                    rw [← hal, parseDigests_ok hdl hsel.2 hagr] at hv
                    simp only [Bool.not_true, Bool.false_eq_true, if_false] at hv
                    cases e6 : rdLP d2 with
                    | error e => rw [e6] at hv; exact fin' x2 hv
                    | ok p6 =>
                      obtain ⟨attrs, tail'⟩ := p6
                      rw [e6] at hv; simp only at hv
                      cases hs : lpSplit attrs with
                      | mk items err =>
                        rw [hs] at hv; simp only at hv
                        obtain ⟨f1, f2⟩ := v2AttrFold_spec maxSdk items r2
                        rw [x2.present] at f1 f2
                        by_cases hat : ∀ x ∈ items, V2AttrOK maxSdk (Present r) x
                        · obtain ⟨ws, hw⟩ := f1 hat
                          rw [hw] at hv
                          simp only [Bool.not_true, Bool.false_eq_true, if_false] at hv
                          have x3 : r.Ext { r2 with warnings := r2.warnings ++ ws } :=
                            x2.trans ⟨⟨[], by simp⟩, rfl, rfl, rfl, ⟨[], by simp⟩, ⟨_, rfl⟩⟩
                          cases err with
                          | some e => exact fin' x3 hv
                          | none =>
                            exfalso
                            apply h
                            obtain ⟨q1, q2⟩ := (lpSplit_ok_iff attrs items).1 hs
                            obtain ⟨s1, g1⟩ := rdLP_ok e1
                            obtain ⟨s2, g2⟩ := rdLP_ok e2
                            obtain ⟨s3, g3⟩ := rdLP_ok e3
                            obtain ⟨s4, g4⟩ := rdLP_ok e4
                            obtain ⟨s5, g5⟩ := rdLP_ok e5
                            obtain ⟨s6, g6⟩ := rdLP_ok e6
                            refine ⟨main :: more, a, d, ⟨signedData, sigs, pk, tail, sigRecs, sig, digests, certs, attrs, tail',
                              recs, items, main, more, ?_, s1, s2, s3, ?_, s4, s5, s6, hsl, hk, hc, rfl, hdl, hal, ⟨q2, q1⟩, hat⟩, hagr⟩
                            · rw [g1, g2, g3]; simp [List.append_assoc]
                            · rw [g4, g5, g6]; simp [List.append_assoc]
                        · obtain ⟨r3, b, hf, x3, f3⟩ := f2 hat
                          rw [hf] at hv
                          have x3' := x2.trans x3
                          have f3' := x2.trans_failed f3
                          cases b with
                          | false => exact fin'' x3' f3' hv
                          | true =>
                            cases err with
                            | none => exact fin'' x3' f3' hv
                            | some e =>
                              exact fin'' (x3'.trans (Core.Ext.addError _ _)) (f3'.trans_ext (Core.Ext.addError _ _).errors) hv
                  · obtain ⟨r3, cd3, hf, x3, f3⟩ := parseDigests_fail hsel.2 hsel.1 hd r2
                    rw [hf] at hv
                    exact fin'' (x2.trans x3) (x2.trans_failed f3) hv
                · obtain ⟨r2, hf, x2, f2⟩ := parseCertificates_fail hc r1
                  rw [hf] at hv
                  exact fin'' (x1.trans x2) (x1.trans_failed f2) hv
          · cases hp : parsePublicKey env pk (a, sig) signedData r1 with
            | error e => rw [hp] at hv; cases hv
            | ok p =>
              obtain ⟨r2, b⟩ := p
              obtain ⟨rfl, x2, f2⟩ := parsePublicKey_fail hk hp
              rw [hp] at hv
              exact fin'' (x1.trans x2) (x1.trans_failed f2) hv
      · obtain ⟨r1, ctx, hf, x1, f1⟩ := parseSignatures_fail hsl r
        rw [hf] at hv
        exact fin'' x1 f1 hv

/-! ## All signers -/

/-- Every signer in the list is accepted in turn; `views` gives chain, algorithm and digest of each. -/
def V2SignersOK (env : Env) (maxSdk : Int) (present : Nat → Prop) : Digests → List Bytes → List (List Cert × Nat × Bytes) →
    Digests → Prop
  | cd, [], vs, cd' => vs = [] ∧ cd' = cd
  | cd, s :: ss, vs, cd' => ∃ chain a d vs', vs = (chain, a, d) :: vs' ∧ V2SignerOK env maxSdk present s chain a d ∧
      Agrees cd (algDigest a) d ∧ V2SignersOK env maxSdk present (mset cd (algDigest a) d) ss vs' cd'

theorem v2VerifySigner_ext {env : Env} {maxSdk : Int} {s : Bytes} {cd cd' : Digests} {r r' : Core}
    (h : v2VerifySigner env maxSdk s cd r = .ok (r', cd')) : r.Ext r' := by
  by_cases hs : ∃ chain a d, V2SignerOK env maxSdk (Present r) s chain a d ∧ Agrees cd (algDigest a) d
  · obtain ⟨chain, a, d, h1, h2⟩ := hs
    obtain ⟨ws, hw⟩ := v2VerifySigner_ok h1 h2
    rw [h] at hw
    simp only [Except.ok.injEq, Prod.mk.injEq] at hw
    rw [hw.1]
    exact ⟨⟨_, rfl⟩, rfl, rfl, rfl, ⟨[], by simp⟩, ⟨ws, rfl⟩⟩
  · exact (v2VerifySigner_fail hs h).1

theorem v2Signers_ext {env : Env} {maxSdk : Int} (ss : List Bytes) : ∀ {cd cd' : Digests} {r r' : Core},
    v2Signers env maxSdk ss cd r = .ok (r', cd') → r.Ext r' := by
  induction ss with
  | nil =>
    intro cd cd' r r' h
    simp only [v2Signers, Except.ok.injEq, Prod.mk.injEq] at h
    rw [← h.1]; exact Core.Ext.refl _
  | cons s ss ih =>
    intro cd cd' r r' h
    rw [v2Signers] at h
    cases h1 : v2VerifySigner env maxSdk s cd r with
    | error p => rw [h1] at h; cases h
    | ok x =>
      obtain ⟨r1, cd1⟩ := x
      rw [h1] at h
      exact (v2VerifySigner_ext h1).trans (ih h)

theorem v2Signers_ok {env : Env} {maxSdk : Int} (ss : List Bytes) : ∀ {cd cd' : Digests} {r : Core} {vs},
    V2SignersOK env maxSdk (Present r) cd ss vs cd' →
    ∃ ws, v2Signers env maxSdk ss cd r =
      .ok ({ r with certs := r.certs ++ vs.map (·.1), warnings := r.warnings ++ ws }, cd') := by
  induction ss with
  | nil =>
    intro cd cd' r vs h
    obtain ⟨rfl, rfl⟩ := h
    exact ⟨[], by simp [v2Signers]⟩
  | cons s ss ih =>
    intro cd cd' r vs h
    obtain ⟨chain, a, d, vs', rfl, h1, h2, h3⟩ := h
    obtain ⟨ws, hw⟩ := v2VerifySigner_ok h1 h2
    rw [v2Signers, hw]
    have := @ih (mset cd (algDigest a) d) cd' { r with certs := r.certs ++ [chain], warnings := r.warnings ++ ws } vs' h3
    obtain ⟨ws', hw'⟩ := this
    refine ⟨ws ++ ws', ?_⟩
    change v2Signers env maxSdk ss _ _ = _
    rw [hw']
    simp

theorem v2Signers_inv {env : Env} {maxSdk : Int} (ss : List Bytes) : ∀ {cd cd' : Digests} {r r' : Core},
    v2Signers env maxSdk ss cd r = .ok (r', cd') → r'.errors = r.errors →
    ∃ vs, V2SignersOK env maxSdk (Present r) cd ss vs cd' := by
  induction ss with
  | nil =>
    intro cd cd' r r' h _
    simp only [v2Signers, Except.ok.injEq, Prod.mk.injEq] at h
    exact ⟨[], rfl, h.2.symm⟩
  | cons s ss ih =>
    intro cd cd' r r' h he
    rw [v2Signers] at h
    cases h1 : v2VerifySigner env maxSdk s cd r with
    | error p => rw [h1] at h; cases h
    | ok x =>
      obtain ⟨r1, cd1⟩ := x
      rw [h1] at h
      have hrest : v2Signers env maxSdk ss cd1 r1 = .ok (r', cd') := h
      have x2 := v2Signers_ext ss hrest
      by_cases hs : ∃ chain a d, V2SignerOK env maxSdk (Present r) s chain a d ∧ Agrees cd (algDigest a) d
      · obtain ⟨chain, a, d, q1, q2⟩ := hs
        obtain ⟨ws, hw⟩ := v2VerifySigner_ok q1 q2
        rw [h1] at hw
        simp only [Except.ok.injEq, Prod.mk.injEq] at hw
        obtain ⟨e1, e2⟩ := hw
        have hp : Present r1 = Present r := by rw [e1]; rfl
        have he1 : r1.errors = r.errors := by rw [e1]
        obtain ⟨vs, hvs⟩ := ih hrest (by rw [he, he1])
        rw [hp, e2] at hvs
        exact ⟨_, chain, a, d, vs, rfl, q1, q2, hvs⟩
      · obtain ⟨_, f1⟩ := v2VerifySigner_fail hs h1
        exact absurd he (f1.trans_ext x2.errors).ne

/-- A conforming v2 block. -/
def V2BlockOK (env : Env) (maxSdk : Int) (present : Nat → Prop) (block : Bytes) (vs : List (List Cert × Nat × Bytes))
    (cd' : Digests) : Prop :=
  ∃ signers tail items, block = lp signers ++ tail ∧ Small signers ∧ LPList signers items ∧
    V2SignersOK env maxSdk present [] items vs cd'

theorem v2ParseSigners_ext {env : Env} {maxSdk : Int} {block : Bytes} {cd cd' : Digests} {r r' : Core}
    (h : v2ParseSigners env maxSdk block cd r = .ok (r', cd')) : r.Ext r' := by
  unfold v2ParseSigners at h
  cases e1 : rdLP block with
  | error e =>
    rw [e1] at h
    simp only [Except.ok.injEq, Prod.mk.injEq] at h
    rw [← h.1]; exact Core.Ext.addError _ _
  | ok p =>
    obtain ⟨signers, tail⟩ := p
    rw [e1] at h
    simp only at h
    cases hs : lpSplit signers with
    | mk items err =>
      rw [hs] at h
      simp only at h
      cases h1 : v2Signers env maxSdk items cd r with
      | error p => rw [h1] at h; cases h
      | ok x =>
        obtain ⟨r1, cd1⟩ := x
        rw [h1] at h
        have x1 := v2Signers_ext items h1
        simp only [bind, Except.bind] at h
        cases err with
        | some e =>
          simp only [Except.ok.injEq, Prod.mk.injEq] at h
          rw [← h.1]; exact x1.trans (Core.Ext.addError _ _)
        | none =>
          simp only at h
          split at h <;>
          · simp only [Except.ok.injEq, Prod.mk.injEq] at h
            rw [← h.1]
            first | exact x1.trans (Core.Ext.addError _ _) | exact x1

theorem v2ParseSigners_ok {env : Env} {maxSdk : Int} {block : Bytes} {cd' : Digests} {r : Core}
    {vs : List (List Cert × Nat × Bytes)} (h : V2BlockOK env maxSdk (Present r) block vs cd')
    (hn : (r.certs ++ vs.map (·.1)).length ≤ 10) :
    ∃ ws, v2ParseSigners env maxSdk block [] r =
      .ok ({ r with certs := r.certs ++ vs.map (·.1), warnings := r.warnings ++ ws }, cd') := by
  obtain ⟨signers, tail, items, h1, h2, ⟨h3, h4⟩, h5⟩ := h
  obtain ⟨ws, hw⟩ := v2Signers_ok items h5
  refine ⟨ws, ?_⟩
  unfold v2ParseSigners
  rw [h1, rdLP_lp _ _ h2]
  simp only
  rw [(lpSplit_ok_iff signers items).2 ⟨h4, h3⟩]
  simp only [hw, bind, Except.bind]
  rw [if_neg (by unfold maxApkSigners; omega)]

theorem v2ParseSigners_inv {env : Env} {maxSdk : Int} {block : Bytes} {cd' : Digests} {r r' : Core}
    (h : v2ParseSigners env maxSdk block [] r = .ok (r', cd')) (he : r'.errors = r.errors) :
    ∃ vs ws, V2BlockOK env maxSdk (Present r) block vs cd' ∧ (r.certs ++ vs.map (·.1)).length ≤ 10 ∧
      r' = { r with certs := r.certs ++ vs.map (·.1), warnings := r.warnings ++ ws } := by
  unfold v2ParseSigners at h
  cases e1 : rdLP block with
  | error e =>
    rw [e1] at h
    simp only [Except.ok.injEq, Prod.mk.injEq] at h
    rw [← h.1] at he
    exact absurd he (Core.Failed.addError _ _).ne
  | ok p =>
    obtain ⟨signers, tail⟩ := p
    rw [e1] at h
    simp only at h
    obtain ⟨g1, g2⟩ := rdLP_ok e1
    cases hs : lpSplit signers with
    | mk items err =>
      rw [hs] at h
      simp only at h
      cases h1 : v2Signers env maxSdk items [] r with
      | error p => rw [h1] at h; cases h
      | ok x =>
        obtain ⟨r1, cd1⟩ := x
        rw [h1] at h
        have x1 := v2Signers_ext items h1
        simp only [bind, Except.bind] at h
        cases err with
        | some e =>
          simp only [Except.ok.injEq, Prod.mk.injEq] at h
          rw [← h.1] at he
          exact absurd he (x1.trans_failed (Core.Failed.addError _ _)).ne
        | none =>
          simp only at h
          split at h
          · simp only [Except.ok.injEq, Prod.mk.injEq] at h
            rw [← h.1] at he
            exact absurd he (x1.trans_failed (Core.Failed.addError _ _)).ne
          · rename_i hle
            simp only [Except.ok.injEq, Prod.mk.injEq] at h
            obtain ⟨rfl, rfl⟩ := h
            obtain ⟨vs, hvs⟩ := v2Signers_inv items h1 he
            obtain ⟨ws, hw⟩ := v2Signers_ok items hvs
            rw [h1] at hw
            simp only [Except.ok.injEq, Prod.mk.injEq, and_true] at hw
            obtain ⟨q1, q2⟩ := (lpSplit_ok_iff signers items).1 hs
            refine ⟨vs, ws, ⟨signers, tail, items, g2, g1, ⟨q2, q1⟩, hvs⟩, ?_, hw⟩
            rw [hw] at hle
            unfold maxApkSigners at hle
            simp only at hle
            omega

end Apk
