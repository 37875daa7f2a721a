import Verif.Proofs.V2
import Verif.Proofs.Lineage
/-! # v3 signers -/
namespace Apk
set_option linter.unusedSimpArgs false

/-- The lineage object built from a list of nodes. -/
def mkLin (l : Option (List LNode)) : Option Lineage := l.map (fun ns => ⟨lineageMinSdk ns, ns⟩)

theorem LineageOK.unique {env : Env} {b : Bytes} {n n' : List LNode} (h : LineageOK env b n) (h' : LineageOK env b n') :
    n = n' := by
  have h1 := readLineage_iff.2 h
  rw [readLineage_iff.2 h'] at h1
  simpa using h1.symm

theorem LineageOf.nil (env : Env) : LineageOf env [] none := by
  unfold LineageOf; simp

theorem LineageOf.snoc_keep {env : Env} {done : List Bytes} {lin : Option (List LNode)} {x : Bytes}
    (h : LineageOf env done lin) (hx : attrId x = lineageAttrId → LineageOK env (x.drop 4) []) :
    LineageOf env (done ++ [x]) lin := by
  unfold LineageOf at *
  cases lin with
  | none =>
    simp only at h ⊢
    intro y hy
    rcases List.mem_append.1 hy with hy | hy
    · exact h y hy
    · simp only [List.mem_singleton] at hy; subst hy; exact hx
  | some nodes =>
    simp only at h ⊢
    obtain ⟨h1, pre, y, post, h2, h3, h4, h5⟩ := h
    refine ⟨h1, pre, y, post ++ [x], by rw [h2]; simp, h3, h4, ?_⟩
    intro z hz
    rcases List.mem_append.1 hz with hz | hz
    · exact h5 z hz
    · simp only [List.mem_singleton] at hz; subst hz; exact hx

theorem LineageOf.snoc_new {env : Env} {done : List Bytes} {x : Bytes} {nodes : List LNode} (hid : attrId x = lineageAttrId)
    (hx : LineageOK env (x.drop 4) nodes) (hne : nodes ≠ []) : LineageOf env (done ++ [x]) (some nodes) :=
  ⟨hne, done, x, [], by simp, hid, hx, by simp⟩

theorem LineageOf.unique {env : Env} {attrs : List Bytes} {l l' : Option (List LNode)} (h : LineageOf env attrs l)
    (h' : LineageOf env attrs l') : l = l' := by
  have key : ∀ n, LineageOf env attrs none → LineageOf env attrs (some n) → False := by
    rintro n h ⟨hne, pre, x, post, e, hid, hx, _⟩
    exact hne (hx.unique (h x (by rw [e]; simp) hid))
  cases l with
  | none =>
    cases l' with
    | none => rfl
    | some n => exact (key n h h').elim
  | some m =>
    cases l' with
    | none => exact (key m h' h).elim
    | some n =>
      obtain ⟨hne, pre, x, post, e, hid, hx, hp⟩ := h
      obtain ⟨hne', pre', x', post', e', hid', hx', hp'⟩ := h'
      rw [e] at e'
      rcases List.append_eq_append_iff.1 e' with ⟨as, e1, e2⟩ | ⟨as, e1, e2⟩
      · cases as with
        | nil =>
          simp only [List.nil_append, List.cons.injEq] at e2
          rw [e2.1] at hx
          rw [hx.unique hx']
        | cons a as =>
          simp only [List.cons_append, List.cons.injEq] at e2
          have := hp x' (by rw [e2.2]; simp) hid'
          exact absurd (hx'.unique this) hne'
      · cases as with
        | nil =>
          simp only [List.nil_append, List.cons.injEq] at e2
          rw [← e2.1] at hx
          rw [hx.unique hx']
        | cons a as =>
          simp only [List.cons_append, List.cons.injEq] at e2
          have := hp' x (by rw [e2.2]; simp) hid
          exact absurd (hx.unique this) hne

/-- One attribute that is fine. -/
theorem v3AttrStep_ok {env : Env} {p : V3Params} {main : Cert} {st : AttrSt} {attr : Bytes} {done : List Bytes}
    {lin : Option (List LNode)} (h : V3AttrOK env p.maxSdk p.rotationMin main attr)
    (hl : LineageOf env done lin) (hst : st.lineage = mkLin lin) :
    ∃ ws lin' f, v3AttrStep env p main st attr =
      .ok (⟨{ st.r with warnings := st.r.warnings ++ ws }, mkLin lin', f⟩, true) ∧ LineageOf env (done ++ [attr]) lin' := by
  obtain ⟨h4, hlin, hrot⟩ := h
  unfold v3AttrStep
  rw [rdU32_eq h4]
  simp only
  have hst' : ∀ ws f, ({ r := { st.r with warnings := st.r.warnings ++ ws }, lineage := st.lineage, minSdkFound := f } : AttrSt) =
      ⟨{ st.r with warnings := st.r.warnings ++ ws }, mkLin lin, f⟩ := by intro ws f; rw [hst]
  have hst0 : ∀ f, ({ r := st.r, lineage := st.lineage, minSdkFound := f } : AttrSt) =
      ⟨{ st.r with warnings := st.r.warnings ++ [] }, mkLin lin, f⟩ := by intro f; rw [hst]; simp
  by_cases h1 : attrId attr = lineageAttrId
  · have h1' : leNat (attr.take 4) = 0x3ba06f8c := h1
    rw [if_pos h1']
    obtain ⟨nodes, hn, hlast⟩ := hlin h1
    rw [readLineage_iff.2 hn]
    simp only [bind, Except.bind]
    by_cases hne : nodes = []
    · subst hne
      simp only [List.length_nil, if_true]
      exact ⟨[], lin, st.minSdkFound, by rw [← hst0], hl.snoc_keep (fun _ => hn)⟩
    · rw [if_neg (by simpa using hne)]
      obtain ⟨sub, hs1, hs2⟩ := (subLineage_full hn.nodup hne).2 hlast
      rw [hs1]
      simp only [hs2, ne_eq, not_true_eq_false, if_false]
      exact ⟨[], some nodes, st.minSdkFound, by simp [mkLin], LineageOf.snoc_new h1 hn hne⟩
  · have h1' : ¬ leNat (attr.take 4) = 0x3ba06f8c := h1
    have hk := hl.snoc_keep (x := attr) (fun e => absurd e h1)
    rw [if_neg h1']
    by_cases h2 : attrId attr = rotationMinSdkAttrId
    · have h2' : leNat (attr.take 4) = 0x559f8b02 := h2
      rw [if_pos h2']
      by_cases hm : 33 ≤ p.maxSdk
      · have hs' : supportsSigV31 p.maxSdk = true := by simp [supportsSigV31, hm]
        obtain ⟨h8, hr0, hr1⟩ := hrot h2 hm
        rw [if_pos hs', rdU32_eq (by rw [List.length_drop]; omega)]
        simp only [hr0, ne_eq, not_false_eq_true, if_true, hr1, not_true_eq_false, if_false]
        exact ⟨[], lin, true, by rw [← hst0], hk⟩
      · have hs' : ¬ supportsSigV31 p.maxSdk = true := by simp [supportsSigV31]; omega
        rw [if_neg hs']
        exact ⟨[_], lin, true, by rw [← hst']; rfl, hk⟩
    · have h2' : ¬ leNat (attr.take 4) = 0x559f8b02 := h2
      rw [if_neg h2']
      by_cases h3 : leNat (attr.take 4) = 0xc2a6b3ba
      · rw [if_pos h3]
        cases p.actingAsV31 with
        | false => exact ⟨[_], lin, st.minSdkFound, by rw [← hst']; rfl, hk⟩
        | true => exact ⟨[], lin, st.minSdkFound, by rw [← hst0]; rfl, hk⟩
      · rw [if_neg h3]
        exact ⟨[_], lin, st.minSdkFound, by rw [← hst']; rfl, hk⟩

/-- One attribute that is not. -/
theorem v3AttrStep_fail {env : Env} {p : V3Params} {main : Cert} {st st' : AttrSt} {attr : Bytes} {b : Bool}
    (h : ¬ V3AttrOK env p.maxSdk p.rotationMin main attr) (hv : v3AttrStep env p main st attr = .ok (st', b)) :
    st.r.Ext st'.r ∧ st.r.Failed st'.r := by
  have fin : ∀ {e : E} {l : Option Lineage} {f b' : Bool},
      (.ok (⟨st.r.addError e, l, f⟩, b') : Go (AttrSt × Bool)) = .ok (st', b) → st.r.Ext st'.r ∧ st.r.Failed st'.r := by
    intro e l f b' h
    simp only [Except.ok.injEq, Prod.mk.injEq] at h
    obtain ⟨rfl, rfl⟩ := h
    exact ⟨Core.Ext.addError _ _, Core.Failed.addError _ _⟩
  unfold v3AttrStep at hv
  by_cases h4 : 4 ≤ attr.length
  · rw [rdU32_eq h4] at hv
    simp only at hv
    by_cases h1 : attrId attr = lineageAttrId
    · have h1' : leNat (attr.take 4) = 0x3ba06f8c := h1
      rw [if_pos h1'] at hv
      cases hr : readLineage env (attr.drop 4) with
      | error e => rw [hr] at hv; cases hv
      | ok x =>
        rw [hr] at hv
        simp only [bind, Except.bind] at hv
        cases x with
        | error e => exact fin hv
        | ok nodes =>
          have hn := readLineage_iff.1 hr
          simp only at hv
          have h2 : attrId attr ≠ rotationMinSdkAttrId := by rw [h1]; decide
          have hbad : ¬ ∀ last, nodes.getLast? = some last → last.cert.raw = main.raw := by
            intro hlast
            exact h ⟨h4, fun _ => ⟨nodes, hn, hlast⟩, fun e => absurd e h2⟩
          have hne : nodes ≠ [] := by rintro rfl; exact hbad (by simp)
          rw [if_neg (by simpa using hne)] at hv
          cases hs : subLineage nodes main with
          | none => rw [hs] at hv; exact fin hv
          | some sub =>
            rw [hs] at hv
            simp only at hv
            by_cases hq : nodes.length = sub.length
            · exact absurd ((subLineage_full hn.nodup hne).1 ⟨sub, hs, hq⟩) hbad
            · rw [if_pos hq] at hv
              exact fin hv
    · have h1' : ¬ leNat (attr.take 4) = 0x3ba06f8c := h1
      rw [if_neg h1'] at hv
      by_cases h2 : attrId attr = rotationMinSdkAttrId
      · have h2' : leNat (attr.take 4) = 0x559f8b02 := h2
        rw [if_pos h2'] at hv
        by_cases hm : 33 ≤ p.maxSdk
        · have hs' : supportsSigV31 p.maxSdk = true := by simp [supportsSigV31, hm]
          rw [if_pos hs'] at hv
          by_cases h8 : 8 ≤ attr.length
          · rw [rdU32_eq (by rw [List.length_drop]; omega)] at hv
            simp only at hv
            by_cases hr0 : p.rotationMin ≠ 0
            · rw [if_pos hr0] at hv
              by_cases hr1 : p.rotationMin ≠ toI32 (leNat ((attr.drop 4).take 4))
              · rw [if_pos hr1] at hv; exact fin hv
              · exact absurd ⟨h4, fun e => absurd e h1, fun _ _ => ⟨h8, hr0, by simpa using (Eq.symm (Decidable.not_not.1 hr1))⟩⟩ h
            · rw [if_neg hr0] at hv; exact fin hv
          · rw [rdU32_none.2 (by rw [List.length_drop]; omega)] at hv
            exact fin hv
        · exact absurd ⟨h4, fun e => absurd e h1, fun _ hm' => absurd hm' hm⟩ h
      · exact absurd ⟨h4, fun e => absurd e h1, fun e => absurd e h2⟩ h
  · rw [rdU32_none.2 (by omega)] at hv
    exact fin hv

theorem Core.Ext.warn (r : Core) (ws : List W) : r.Ext { r with warnings := r.warnings ++ ws } :=
  ⟨⟨[], by simp⟩, rfl, rfl, rfl, ⟨[], by simp⟩, ⟨ws, rfl⟩⟩

theorem v3AttrStep_ext {env : Env} {p : V3Params} {main : Cert} {st st' : AttrSt} {attr : Bytes} {b : Bool}
    (hv : v3AttrStep env p main st attr = .ok (st', b)) : st.r.Ext st'.r := by
  by_cases h : V3AttrOK env p.maxSdk p.rotationMin main attr
  · -- the result does not depend on the lineage already there
    obtain ⟨h4, hlin, hrot⟩ := h
    unfold v3AttrStep at hv
    rw [rdU32_eq h4] at hv
    simp only at hv
    have fin : ∀ {r0 : Core} {l : Option Lineage} {f b' : Bool}, st.r.Ext r0 →
        (.ok (⟨r0, l, f⟩, b') : Go (AttrSt × Bool)) = .ok (st', b) → st.r.Ext st'.r := by
      intro r0 l f b' hx h
      simp only [Except.ok.injEq, Prod.mk.injEq] at h
      obtain ⟨rfl, rfl⟩ := h
      exact hx
    by_cases h1 : leNat (attr.take 4) = 0x3ba06f8c
    · rw [if_pos h1] at hv
      cases hr : readLineage env (attr.drop 4) with
      | error e => rw [hr] at hv; cases hv
      | ok x =>
        rw [hr] at hv
        simp only [bind, Except.bind] at hv
        cases x with
        | error e => exact fin (Core.Ext.addError _ _) hv
        | ok nodes =>
          simp only at hv
          split at hv
          · exact fin (Core.Ext.refl _) hv
          · cases hs : subLineage nodes main with
            | none => rw [hs] at hv; exact fin (Core.Ext.addError _ _) hv
            | some sub =>
              rw [hs] at hv
              simp only at hv
              split at hv
              · exact fin (Core.Ext.addError _ _) hv
              · exact fin (Core.Ext.refl _) hv
    · rw [if_neg h1] at hv
      split at hv
      · split at hv
        · split at hv
          · exact fin (Core.Ext.addError _ _) hv
          · split at hv
            · split at hv
              · exact fin (Core.Ext.addError _ _) hv
              · exact fin (Core.Ext.refl _) hv
            · exact fin (Core.Ext.addError _ _) hv
        · exact fin (Core.Ext.addWarning _ _) hv
      · split at hv
        · split at hv
          · exact fin (Core.Ext.addWarning _ _) hv
          · exact fin (Core.Ext.refl _) hv
        · exact fin (Core.Ext.addWarning _ _) hv
  · exact (v3AttrStep_fail h hv).1

theorem v3AttrFold_ext {env : Env} {p : V3Params} {main : Cert} (items : List Bytes) : ∀ {st st' : AttrSt} {b : Bool},
    foldGo (v3AttrStep env p main) st items = .ok (st', b) → st.r.Ext st'.r := by
  induction items with
  | nil =>
    intro st st' b h
    simp only [foldGo, Except.ok.injEq, Prod.mk.injEq] at h
    rw [h.1]; exact Core.Ext.refl _
  | cons x items ih =>
    intro st st' b h
    rw [foldGo] at h
    cases h1 : v3AttrStep env p main st x with
    | error e => rw [h1] at h; cases h
    | ok q =>
      obtain ⟨st1, c⟩ := q
      rw [h1] at h
      simp only [bind, Except.bind] at h
      have x1 := v3AttrStep_ext h1
      cases c with
      | true => exact x1.trans (ih h)
      | false =>
        simp only [Bool.false_eq_true, if_false, Except.ok.injEq, Prod.mk.injEq] at h
        rw [← h.1]; exact x1

theorem v3AttrFold_ok {env : Env} {p : V3Params} {main : Cert} (items : List Bytes) : ∀ {st : AttrSt} {done : List Bytes}
    {lin : Option (List LNode)}, (∀ x ∈ items, V3AttrOK env p.maxSdk p.rotationMin main x) →
    LineageOf env done lin → st.lineage = mkLin lin →
    ∃ ws lin' f, foldGo (v3AttrStep env p main) st items =
      .ok (⟨{ st.r with warnings := st.r.warnings ++ ws }, mkLin lin', f⟩, true) ∧ LineageOf env (done ++ items) lin' := by
  induction items with
  | nil =>
    intro st done lin _ hl hst
    exact ⟨[], lin, st.minSdkFound, by rw [← hst]; simp [foldGo], by simpa using hl⟩
  | cons x items ih =>
    intro st done lin hx hl hst
    obtain ⟨ws, lin1, f, h1, h2⟩ := v3AttrStep_ok (hx x (by simp)) hl hst
    obtain ⟨ws', lin', f', h3, h4⟩ := ih (st := ⟨{ st.r with warnings := st.r.warnings ++ ws }, mkLin lin1, f⟩)
      (fun y hy => hx y (List.mem_cons_of_mem _ hy)) h2 rfl
    refine ⟨ws ++ ws', lin', f', ?_, by simpa using h4⟩
    rw [foldGo, h1]
    simp only [bind, Except.bind, if_true]
    rw [h3]
    simp

theorem v3AttrFold_fail {env : Env} {p : V3Params} {main : Cert} (items : List Bytes) : ∀ {st st' : AttrSt} {b : Bool},
    (¬ ∀ x ∈ items, V3AttrOK env p.maxSdk p.rotationMin main x) →
    foldGo (v3AttrStep env p main) st items = .ok (st', b) → st.r.Failed st'.r := by
  induction items with
  | nil => intro st st' b h; exact absurd (by simp) h
  | cons x items ih =>
    intro st st' b hx h
    rw [foldGo] at h
    cases h1 : v3AttrStep env p main st x with
    | error e => rw [h1] at h; cases h
    | ok q =>
      obtain ⟨st1, c⟩ := q
      rw [h1] at h
      simp only [bind, Except.bind] at h
      have x1 := v3AttrStep_ext h1
      by_cases hx1 : V3AttrOK env p.maxSdk p.rotationMin main x
      · have hrest : ¬ ∀ y ∈ items, V3AttrOK env p.maxSdk p.rotationMin main y := by
          intro hy; exact hx (by intro z hz; exact (List.mem_cons.1 hz).elim (fun e => e ▸ hx1) (hy z))
        cases c with
        | true => exact x1.trans_failed (ih hrest h)
        | false =>
          -- a fine attribute never stops the loop
          exfalso
          have : ∀ st : AttrSt, ∀ st1, v3AttrStep env p main st x ≠ .ok (st1, false) := by
            intro st st1 he
            obtain ⟨ws, l, f, hh, _⟩ := v3AttrStep_ok (st := { st with lineage := none }) (done := []) (lin := none) hx1
              (LineageOf.nil env) rfl
            obtain ⟨h4, hlin, hrot⟩ := hx1
            unfold v3AttrStep at he hh
            rw [rdU32_eq h4] at he hh
            simp only at he hh
            split at he
            · rename_i hid
              rw [if_pos hid] at hh
              cases hr : readLineage env (x.drop 4) with
              | error e => rw [hr] at he; cases he
              | ok y =>
                rw [hr] at he hh
                simp only [bind, Except.bind] at he hh
                cases y with
                | error e => simp at hh
                | ok nodes =>
                  simp only at he
                  split at he
                  · simp at he
                  · split at he
                    · simp at he
                    · split at he <;> simp at he
            · rename_i hid
              rw [if_neg hid] at hh
              split at he
              · rename_i hid2
                rw [if_pos hid2] at hh
                split at he
                · rename_i hs
                  rw [if_pos hs] at hh
                  split at he
                  · rename_i hn; rw [hn] at hh; simp at hh
                  · split at he
                    · split at he <;> simp at he
                    · simp at he
                · simp at he
              · split at he
                · split at he <;> simp at he
                · simp at he
          exact this st st1 h1
      · have f1 := (v3AttrStep_fail hx1 h1).2
        cases c with
        | true => exact f1.trans_ext (v3AttrFold_ext items h).errors
        | false =>
          simp only [Bool.false_eq_true, if_false, Except.ok.injEq, Prod.mk.injEq] at h
          rw [← h.1]; exact f1

/-- The attribute list of a v3 signer is fine. -/
def V3AttrsOK (env : Env) (p : V3Params) (main : Cert) (d : Bytes) (attrs : Bytes) (recs : List Bytes) : Prop :=
  (∃ tail, d = lp attrs ++ tail) ∧ Small attrs ∧ LPList attrs recs ∧
    ∀ x ∈ recs, V3AttrOK env p.maxSdk p.rotationMin main x

theorem v3Attrs_ok {env : Env} {p : V3Params} {main : Cert} {d attrs : Bytes} {recs : List Bytes} {lin : Option (List LNode)}
    {r : Core} (h : V3AttrsOK env p main d attrs recs) (hl : LineageOf env recs lin) :
    ∃ ws, v3Attrs env p main d r = .ok ({ r with warnings := r.warnings ++ ws }, mkLin lin) := by
  obtain ⟨⟨tail, rfl⟩, hs, ⟨h1, h2⟩, h3⟩ := h
  obtain ⟨ws, lin', f, h4, h5⟩ := v3AttrFold_ok (main := main) (p := p) recs (st := ⟨r, none, false⟩) h3 (LineageOf.nil env) rfl
  rw [List.nil_append] at h5
  have := h5.unique hl
  subst this
  unfold v3Attrs
  rw [rdLP_lp _ _ hs]
  simp only
  rw [(lpSplit_ok_iff attrs recs).2 ⟨h2, h1⟩]
  simp only
  rw [h4]
  simp only [bind, Except.bind, Bool.not_true, Bool.false_eq_true, if_false]
  split
  · exact ⟨ws ++ [.rotationAttrMissing], by simp [Core.addWarning]⟩
  · exact ⟨ws, rfl⟩

theorem v3Attrs_ext {env : Env} {p : V3Params} {main : Cert} {d : Bytes} {r r' : Core} {l : Option Lineage}
    (hv : v3Attrs env p main d r = .ok (r', l)) : r.Ext r' := by
  unfold v3Attrs at hv
  cases e1 : rdLP d with
  | error e =>
    rw [e1] at hv
    simp only [Except.ok.injEq, Prod.mk.injEq] at hv
    rw [← hv.1]; exact Core.Ext.addError _ _
  | ok q =>
    obtain ⟨attrs, tail⟩ := q
    rw [e1] at hv; simp only at hv
    cases hs : lpSplit attrs with
    | mk items err =>
      rw [hs] at hv; simp only at hv
      cases hf : foldGo (v3AttrStep env p main) ⟨r, none, false⟩ items with
      | error e => rw [hf] at hv; cases hv
      | ok q =>
        obtain ⟨st, done⟩ := q
        rw [hf] at hv
        have x := v3AttrFold_ext items hf
        simp only [bind, Except.bind] at hv
        cases done with
        | false =>
          simp only [Bool.not_false, if_true, Except.ok.injEq, Prod.mk.injEq] at hv
          rw [← hv.1]; exact x
        | true =>
          simp only [Bool.not_true, Bool.false_eq_true, if_false] at hv
          cases err with
          | some e =>
            simp only [Except.ok.injEq, Prod.mk.injEq] at hv
            rw [← hv.1]; exact x.trans (Core.Ext.addError _ _)
          | none =>
            simp only at hv
            split at hv <;> simp only [Except.ok.injEq, Prod.mk.injEq] at hv <;> rw [← hv.1]
            · exact x.trans (Core.Ext.addWarning _ _)
            · exact x

theorem v3Attrs_fail {env : Env} {p : V3Params} {main : Cert} {d : Bytes} {r r' : Core} {l : Option Lineage}
    (h : ¬ ∃ attrs recs, V3AttrsOK env p main d attrs recs) (hv : v3Attrs env p main d r = .ok (r', l)) : r.Failed r' := by
  unfold v3Attrs at hv
  cases e1 : rdLP d with
  | error e =>
    rw [e1] at hv
    simp only [Except.ok.injEq, Prod.mk.injEq] at hv
    rw [← hv.1]; exact Core.Failed.addError _ _
  | ok q =>
    obtain ⟨attrs, tail⟩ := q
    rw [e1] at hv; simp only at hv
    obtain ⟨s1, g1⟩ := rdLP_ok e1
    cases hs : lpSplit attrs with
    | mk items err =>
      rw [hs] at hv; simp only at hv
      cases hf : foldGo (v3AttrStep env p main) ⟨r, none, false⟩ items with
      | error e => rw [hf] at hv; cases hv
      | ok q =>
        obtain ⟨st, done⟩ := q
        rw [hf] at hv
        have x := v3AttrFold_ext items hf
        simp only [bind, Except.bind] at hv
        by_cases hat : ∀ x ∈ items, V3AttrOK env p.maxSdk p.rotationMin main x
        · obtain ⟨ws, lin', f, h4, h5⟩ := v3AttrFold_ok (main := main) (p := p) items (st := ⟨r, none, false⟩) hat (LineageOf.nil env) rfl
          rw [hf] at h4
          simp only [Except.ok.injEq, Prod.mk.injEq] at h4
          rw [h4.2] at hv
          simp only [Bool.not_true, Bool.false_eq_true, if_false] at hv
          cases err with
          | some e =>
            simp only [Except.ok.injEq, Prod.mk.injEq] at hv
            rw [← hv.1]; exact x.trans_failed (Core.Failed.addError _ _)
          | none =>
            exfalso
            obtain ⟨q1, q2⟩ := (lpSplit_ok_iff attrs items).1 hs
            exact h ⟨attrs, items, ⟨tail, g1⟩, s1, ⟨q2, q1⟩, hat⟩
        · have f := v3AttrFold_fail items hat hf
          cases done with
          | false =>
            simp only [Bool.not_false, if_true, Except.ok.injEq, Prod.mk.injEq] at hv
            rw [← hv.1]; exact f
          | true =>
            simp only [Bool.not_true, Bool.false_eq_true, if_false] at hv
            cases err with
            | some e =>
              simp only [Except.ok.injEq, Prod.mk.injEq] at hv
              rw [← hv.1]; exact f.trans_ext (Core.Ext.addError _ _).errors
            | none =>
              simp only at hv
              split at hv <;> simp only [Except.ok.injEq, Prod.mk.injEq] at hv <;> rw [← hv.1]
              · exact f.trans_ext (Core.Ext.addWarning _ _).errors
              · exact f

theorem LineageOf.exists {env : Env} {maxSdk rot : Int} {main : Cert} (recs : List Bytes)
    (h : ∀ x ∈ recs, V3AttrOK env maxSdk rot main x) : ∃ lin, LineageOf env recs lin := by
  obtain ⟨_, lin', _, _, h5⟩ := v3AttrFold_ok (main := main) (p := ⟨false, maxSdk, rot⟩) recs (st := ⟨{}, none, false⟩) h
    (LineageOf.nil env) rfl
  exact ⟨lin', by simpa using h5⟩

/-- Certificates, digests and attributes of a v3 signer are fine. -/
def V3TailOK (env : Env) (p : V3Params) (certs digests pk : Bytes) (a : Nat) (algos : List Nat) (d4 : Bytes) (cd : Digests)
    (main : Cert) (more : List Cert) (d : Bytes) (lin : Option (List LNode)) : Prop :=
  CertList env certs pk main more ∧
  (∃ recs, DigestList digests recs a d ∧ recs.map recAlg = algos ∧ Agrees cd (algDigest a) d) ∧
  ∃ attrs recs, V3AttrsOK env p main d4 attrs recs ∧ LineageOf env recs lin

theorem v3SignerTail_ok {env : Env} {p : V3Params} {certs digests pk : Bytes} {a : Nat} {algos : List Nat} {d4 : Bytes}
    {cd : Digests} {main : Cert} {more : List Cert} {d : Bytes} {lin : Option (List LNode)} {r : Core} (ha : 0 < algStrength a)
    (h : V3TailOK env p certs digests pk a algos d4 cd main more d lin) :
    ∃ ws, v3SignerTail env p certs digests pk a algos d4 cd r =
      .ok ({ r with certs := r.certs ++ [main :: more], warnings := r.warnings ++ ws }, mset cd (algDigest a) d, mkLin lin) := by
  obtain ⟨hc, ⟨recs, hd, hal, hagr⟩, attrs, arecs, hat, hlin⟩ := h
  unfold v3SignerTail
  rw [parseCertificates_ok hc]
  simp only
  rw [← hal, parseDigests_ok hd ha hagr]
  simp only [bind, Except.bind, Bool.not_true, Bool.false_eq_true, if_false]
  obtain ⟨ws, hw⟩ := v3Attrs_ok (r := { r with certs := r.certs ++ [main :: more] }) hat hlin
  rw [hw]
  exact ⟨ws, rfl⟩

theorem v3SignerTail_fail {env : Env} {p : V3Params} {certs digests pk : Bytes} {a : Nat} {algos : List Nat} {d4 : Bytes}
    {cd cd' : Digests} {r r' : Core} {l : Option Lineage} (ha : 0 < algStrength a) (hmem : a ∈ algos)
    (h : ¬ ∃ main more d lin, V3TailOK env p certs digests pk a algos d4 cd main more d lin)
    (hv : v3SignerTail env p certs digests pk a algos d4 cd r = .ok (r', cd', l)) : r.Ext r' ∧ r.Failed r' := by
  unfold v3SignerTail at hv
  by_cases hc : ∃ main more, CertList env certs pk main more
  · obtain ⟨main, more, hc⟩ := hc
    rw [parseCertificates_ok hc] at hv
    simp only at hv
    have x1 : r.Ext { r with certs := r.certs ++ [main :: more] } := ⟨⟨_, rfl⟩, rfl, rfl, rfl, ⟨[], by simp⟩, ⟨[], by simp⟩⟩
    generalize hr2 : ({ r with certs := r.certs ++ [main :: more] } : Core) = r2 at hv x1
    by_cases hd : ∃ recs d, DigestList digests recs a d ∧ recs.map recAlg = algos ∧ Agrees cd (algDigest a) d
    · obtain ⟨recs, d, hdl, hal, hagr⟩ := hd
      rw [← hal, parseDigests_ok hdl ha hagr] at hv
      simp only [bind, Except.bind, Bool.not_true, Bool.false_eq_true, if_false] at hv
      cases hA : v3Attrs env p main d4 r2 with
      | error e => rw [hA] at hv; cases hv
      | ok q =>
        obtain ⟨r3, l3⟩ := q
        rw [hA] at hv
        simp only [Except.ok.injEq, Prod.mk.injEq] at hv
        obtain ⟨rfl, _, _⟩ := hv
        refine ⟨x1.trans (v3Attrs_ext hA), x1.trans_failed (v3Attrs_fail ?_ hA)⟩
        rintro ⟨attrs, arecs, hat⟩
        obtain ⟨lin, hlin⟩ := LineageOf.exists arecs hat.2.2.2
        exact h ⟨main, more, d, lin, hc, ⟨recs, hdl, hal, hagr⟩, attrs, arecs, hat, hlin⟩
    · obtain ⟨r3, cd3, hf, x3, f3⟩ := parseDigests_fail ha hmem hd r2
      rw [hf] at hv
      simp only [bind, Except.bind, Bool.not_false, if_true, Except.ok.injEq, Prod.mk.injEq] at hv
      rw [← hv.1]
      exact ⟨x1.trans x3, x1.trans_failed f3⟩
  · obtain ⟨r2, hf, x2, f2⟩ := parseCertificates_fail hc r
    rw [hf] at hv
    simp only [Except.ok.injEq, Prod.mk.injEq] at hv
    rw [← hv.1]
    exact ⟨x2, f2⟩

theorem v3SignerTail_ext {env : Env} {p : V3Params} {certs digests pk : Bytes} {a : Nat} {algos : List Nat} {d4 : Bytes}
    {cd cd' : Digests} {r r' : Core} {l : Option Lineage} (ha : 0 < algStrength a) (hmem : a ∈ algos)
    (hv : v3SignerTail env p certs digests pk a algos d4 cd r = .ok (r', cd', l)) : r.Ext r' := by
  by_cases h : ∃ main more d lin, V3TailOK env p certs digests pk a algos d4 cd main more d lin
  · obtain ⟨main, more, d, lin, h⟩ := h
    obtain ⟨ws, hw⟩ := v3SignerTail_ok (r := r) ha h
    rw [hv] at hw
    simp only [Except.ok.injEq, Prod.mk.injEq] at hw
    rw [hw.1]
    exact ⟨⟨_, rfl⟩, rfl, rfl, rfl, ⟨[], by simp⟩, ⟨ws, rfl⟩⟩
  · exact (v3SignerTail_fail ha hmem h hv).1

end Apk
