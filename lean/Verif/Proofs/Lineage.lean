import Verif.Spec.V3
import Verif.Proofs.V2
/-! # Signing certificate lineages -/
namespace Apk

theorem NodeOK.unique {env : Env} {parse : Bytes → Option Cert} {prev prev' : Option LNode} {b : Bytes} {n n' : LNode}
    (h : NodeOK env parse prev b n) (h' : NodeOK env parse prev' b n') : n = n' := by
  obtain ⟨sd, der, t, t', h1, h2, h3, h4, h5, h6, h7, h8, h9, _⟩ := h
  obtain ⟨sd', der', u, u', g1, g2, g3, g4, g5, g6, g7, g8, g9, _⟩ := h'
  rw [h1] at g1
  simp only [List.append_assoc] at g1
  have e1 := congrArg rdLP g1
  rw [rdLP_lp _ _ h3, rdLP_lp _ _ g3] at e1
  simp only [Except.ok.injEq, Prod.mk.injEq] at e1
  obtain ⟨rfl, e1⟩ := e1
  obtain ⟨e2, e3⟩ := List.append_inj e1 (by simp)
  obtain ⟨e4, e5⟩ := List.append_inj e3 (by simp)
  have e6 := congrArg rdLP e5
  rw [rdLP_lp _ _ h5, rdLP_lp _ _ g5] at e6
  simp only [Except.ok.injEq, Prod.mk.injEq] at e6
  rw [h2] at g2
  simp only [List.append_assoc] at g2
  have e7 := congrArg rdLP g2
  rw [rdLP_lp _ _ h4, rdLP_lp _ _ g4] at e7
  simp only [Except.ok.injEq, Prod.mk.injEq] at e7
  obtain ⟨rfl, e7⟩ := e7
  obtain ⟨e8, _⟩ := List.append_inj e7 (by simp)
  have f1 := leBytes_inj e2 h6 g6
  have f2 := leBytes_inj e4 h7 g7
  have f3 := leBytes_inj e8 h8 g8
  rw [h9] at g9
  simp only [Option.some.injEq] at g9
  cases n; cases n'
  simp only at *
  simp [f1, f2, f3, e6.1, g9]

theorem lineageStep_ok {env : Env} {parse : Bytes → Option Cert} {nodes : List LNode} {b : Bytes} {n : LNode}
    (h : NodeOK env parse nodes.getLast? b n) (hd : n.cert.raw ∉ nodes.map (·.cert.raw)) :
    lineageStep env parse nodes b = .ok (.ok (nodes ++ [n])) := by
  obtain ⟨sd, der, t, t', h1, h2, h3, h4, h5, h6, h7, h8, h9, h10⟩ := h
  have hany : nodes.any (fun x => decide (x.cert.raw = n.cert.raw)) = false := by
    rw [List.any_eq_false]
    intro x hx
    simp only [decide_eq_true_eq]
    intro he
    exact hd (List.mem_map.2 ⟨x, hx, he⟩)
  have eU : ∀ (v : Nat) (rest : Bytes), v < 2 ^ 32 → rdU32 (leBytes 4 v ++ rest) = some (v, rest) :=
    fun v rest hv => rdU32_some.2 ⟨hv, rfl⟩
  have e1 : rdLP b = .ok (sd, leBytes 4 n.flags ++ (leBytes 4 n.algo ++ (lp n.signature ++ t))) := by
    rw [h1]; simp only [List.append_assoc]; rw [rdLP_lp _ _ h3]
  have e2 : rdLP sd = .ok (der, leBytes 4 n.parentAlgo ++ t') := by
    rw [h2]; simp only [List.append_assoc]; rw [rdLP_lp _ _ h4]
  unfold lineageStep
  rw [e1]; simp only
  rw [eU _ _ h6]; simp only
  rw [eU _ _ h7]; simp only
  rw [rdLP_lp _ _ h5]; simp only
  cases hl : nodes.getLast? with
  | none =>
    simp only [bind, Except.bind]
    rw [e2]; simp only
    rw [eU _ _ h8]; simp only [Bool.false_eq_true, if_false]
    rw [h9]; simp only
    rw [hany]
    rfl
  | some last =>
    obtain ⟨hv, hp⟩ := h10 last hl
    simp only
    rw [(verifySignature_iff env _ _ _ _).2 hv]
    simp only [bind, Except.bind]
    rw [e2]; simp only
    rw [eU _ _ h8]; simp only [hp, ne_eq, not_true_eq_false, decide_false, Bool.false_eq_true, if_false]
    rw [h9]; simp only
    rw [hany]
    simp only [Bool.false_eq_true, if_false, ← hp]

theorem lineageStep_inv {env : Env} {parse : Bytes → Option Cert} {nodes nodes' : List LNode} {b : Bytes}
    (h : lineageStep env parse nodes b = .ok (.ok nodes')) :
    ∃ n, nodes' = nodes ++ [n] ∧ NodeOK env parse nodes.getLast? b n ∧ n.cert.raw ∉ nodes.map (·.cert.raw) := by
  unfold lineageStep at h
  cases e1 : rdLP b with
  | error e => rw [e1] at h; simp at h
  | ok p =>
    obtain ⟨sd, n1⟩ := p
    rw [e1] at h; simp only at h
    cases e2 : rdU32 n1 with
    | none => rw [e2] at h; simp at h
    | some p =>
      obtain ⟨flags, n2⟩ := p
      rw [e2] at h; simp only at h
      cases e3 : rdU32 n2 with
      | none => rw [e3] at h; simp at h
      | some p =>
        obtain ⟨algo, n3⟩ := p
        rw [e3] at h; simp only at h
        cases e4 : rdLP n3 with
        | error e => rw [e4] at h; simp at h
        | ok p =>
          obtain ⟨sig, n4⟩ := p
          rw [e4] at h; simp only at h
          have rest : ∀ (hsig : ∀ p, nodes.getLast? = some p → SigValid env p.cert.key p.algo sd sig),
              (match rdLP sd with
                | .error e => (.ok (.error (.lineageCertRead e)) : Go (Except E (List LNode)))
                | .ok (encoded, s1) =>
                  match rdU32 s1 with
                  | none => .ok (.error .lineageSignedAlgoRead)
                  | some (parentAlgo, _) =>
                    if (match nodes.getLast? with | none => false | some last => decide (last.algo ≠ parentAlgo)) then
                      .ok (.error .lineageAlgoMismatch)
                    else match parse encoded with
                      | none => .ok (.error .lineageCertParse)
                      | some cert =>
                        if nodes.any (fun n => decide (n.cert.raw = cert.raw)) then .ok (.error .lineageDup)
                        else .ok (.ok (nodes ++ [(⟨cert, parentAlgo, algo, sig, flags⟩ : LNode)]))) = .ok (.ok nodes') →
              ∃ n, nodes' = nodes ++ [n] ∧ NodeOK env parse nodes.getLast? b n ∧ n.cert.raw ∉ nodes.map (·.cert.raw) := by
            intro hsig h
            cases e5 : rdLP sd with
            | error e => rw [e5] at h; simp at h
            | ok p =>
              obtain ⟨der, s1⟩ := p
              rw [e5] at h; simp only at h
              cases e6 : rdU32 s1 with
              | none => rw [e6] at h; simp at h
              | some p =>
                obtain ⟨pa, s2⟩ := p
                rw [e6] at h; simp only at h
                by_cases hmis : (match nodes.getLast? with | none => false | some last => decide (last.algo ≠ pa)) = true
                · rw [if_pos hmis] at h; simp at h
                · rw [if_neg hmis] at h
                  cases e7 : parse der with
                  | none => rw [e7] at h; simp at h
                  | some cert =>
                    rw [e7] at h; simp only at h
                    split at h
                    · simp at h
                    · rename_i hany
                      simp only [Except.ok.injEq] at h
                      refine ⟨_, h.symm, ?_, ?_⟩
                      · obtain ⟨a1, a2⟩ := rdLP_ok e1
                        obtain ⟨b1, b2⟩ := rdU32_some.1 e2
                        obtain ⟨c1, c2⟩ := rdU32_some.1 e3
                        obtain ⟨d1, d2⟩ := rdLP_ok e4
                        obtain ⟨f1, f2⟩ := rdLP_ok e5
                        obtain ⟨g1, g2⟩ := rdU32_some.1 e6
                        refine ⟨sd, der, n4, s2, ?_, ?_, a1, f1, d1, b1, c1, g1, e7, ?_⟩
                        · rw [a2, b2, c2, d2]; simp [List.append_assoc]
                        · rw [f2, g2]; simp [List.append_assoc]
                        · intro p hp
                          refine ⟨hsig p hp, ?_⟩
                          rw [hp] at hmis
                          simp only [ne_eq, decide_not, Bool.not_eq_true', decide_eq_false_iff_not, Decidable.not_not] at hmis
                          exact hmis.symm
                      · simp only
                        intro hm
                        obtain ⟨x, hx, hx'⟩ := List.mem_map.1 hm
                        exact hany (List.any_eq_true.2 ⟨x, hx, by simp [hx']⟩)
          cases hl : nodes.getLast? with
          | none =>
            rw [hl] at h
            simp only [bind, Except.bind] at h
            rw [← hl]
            refine rest ?_ ?_
            · intro p hp; rw [hl] at hp; cases hp
            · rw [hl]; exact h
          | some last =>
            rw [hl] at h
            simp only at h
            cases hv : verifySignature env last.cert.key last.algo sd sig with
            | error e => rw [hv] at h; cases h
            | ok o =>
              rw [hv] at h
              simp only [bind, Except.bind] at h
              cases o with
              | some e => simp at h
              | none =>
                simp only at h
                rw [← hl]
                refine rest ?_ ?_
                · intro p hp; rw [hl] at hp; cases hp; exact (verifySignature_iff _ _ _ _ _).1 hv
                · rw [hl]; exact h

theorem lineageLoop_iff {env : Env} {parse : Bytes → Option Cert} (bs : List Bytes) : ∀ {nodes nodes' : List LNode},
    (nodes.map (·.cert.raw)).Nodup →
    (lineageLoop env parse nodes bs = .ok (.ok nodes') ↔
      ∃ ns, nodes' = nodes ++ ns ∧ ChainOK env parse nodes.getLast? bs ns ∧ ((nodes ++ ns).map (·.cert.raw)).Nodup) := by
  induction bs with
  | nil =>
    intro nodes nodes' hnd
    simp only [lineageLoop, Except.ok.injEq]
    constructor
    · rintro rfl; exact ⟨[], by simp, trivial, by simpa using hnd⟩
    · rintro ⟨ns, rfl, hc, _⟩
      cases ns with
      | nil => simp
      | cons => exact absurd hc id
  | cons b bs ih =>
    intro nodes nodes' hnd
    rw [lineageLoop]
    have nd : ∀ n : LNode, n.cert.raw ∉ nodes.map (·.cert.raw) → ((nodes ++ [n]).map (·.cert.raw)).Nodup := by
      intro n hn
      rw [List.map_append, List.nodup_append]
      refine ⟨hnd, by simp, ?_⟩
      intro a ha c hc
      simp only [List.map_cons, List.map_nil, List.mem_singleton] at hc
      subst hc
      intro he
      exact hn (he ▸ ha)
    constructor
    · intro h
      cases hs : lineageStep env parse nodes b with
      | error p => rw [hs] at h; cases h
      | ok r =>
        rw [hs] at h
        cases r with
        | error e => simp [bind, Except.bind] at h
        | ok nodes1 =>
          obtain ⟨n, rfl, hn, hfresh⟩ := lineageStep_inv hs
          have h' : lineageLoop env parse (nodes ++ [n]) bs = .ok (.ok nodes') := h
          obtain ⟨ns, e1, e2, e3⟩ := (ih (nd n hfresh)).1 h'
          refine ⟨n :: ns, by rw [e1]; simp, ⟨hn, ?_⟩, by simpa using e3⟩
          rw [List.getLast?_append] at e2
          exact e2
    · rintro ⟨ns, rfl, hc, hnd'⟩
      cases ns with
      | nil => exact absurd hc id
      | cons n ns =>
        obtain ⟨hn, hc⟩ := hc
        have hfresh : n.cert.raw ∉ nodes.map (·.cert.raw) := by
          rw [List.map_append, List.nodup_append] at hnd'
          intro hm
          exact hnd'.2.2 _ hm n.cert.raw (by simp) rfl
        rw [lineageStep_ok hn hfresh]
        change lineageLoop env parse (nodes ++ [n]) bs = _
        rw [ih (nd n hfresh)]
        refine ⟨ns, by simp, ?_, by simpa using hnd'⟩
        rw [List.getLast?_append]
        exact hc

theorem readLineage_iff {env : Env} {b : Bytes} {nodes : List LNode} :
    readLineage env b = .ok (.ok nodes) ↔ LineageOK env b nodes := by
  unfold readLineage LineageOK
  by_cases hb : b = []
  · subst hb
    simp only [List.length_nil, if_true, Except.ok.injEq, true_and]
    constructor
    · rintro rfl; exact Or.inl rfl
    · rintro (h | ⟨items, h, _⟩)
      · exact h.symm
      · have := congrArg List.length h; simp at this; omega
  · have hl : ¬ b.length = 0 := by
      intro h; exact hb (List.length_eq_zero_iff.1 h)
    simp only [hl, hb, if_false, false_and, false_or]
    constructor
    · intro h
      cases e1 : rdU32 b with
      | none => rw [e1] at h; simp at h
      | some p =>
        obtain ⟨v, rest⟩ := p
        rw [e1] at h; simp only at h
        obtain ⟨_, hbe⟩ := rdU32_some.1 e1
        split at h
        · simp at h
        · rename_i hv
          have hv : v = 1 := by simpa using hv
          subst hv
          cases hs : lpSplit rest with
          | mk items err =>
            rw [hs] at h; simp only at h
            cases hlp : lineageLoop env env.parseCertStd [] items with
            | error e => rw [hlp] at h; cases h
            | ok r =>
              rw [hlp] at h
              simp only [bind, Except.bind] at h
              cases r with
              | error e => simp at h
              | ok ns =>
                simp only at h
                cases err with
                | some e => simp at h
                | none =>
                  simp only [Except.ok.injEq] at h
                  subst h
                  obtain ⟨q1, q2⟩ := (lpSplit_ok_iff rest items).1 hs
                  obtain ⟨ns', e2, e3, e4⟩ := (lineageLoop_iff items (by simp)).1 hlp
                  simp only [List.nil_append] at e2 e4
                  subst e2
                  exact ⟨items, by rw [hbe, q2], q1, e3, e4⟩
    · rintro ⟨items, h1, h2, h3, h4⟩
      have e1 : rdU32 b = some (1, lpSeq items) := rdU32_some.2 ⟨by decide, h1⟩
      rw [e1]; simp only [ne_eq, not_true_eq_false, if_false]
      rw [(lpSplit_ok_iff (lpSeq items) items).2 ⟨h2, rfl⟩]
      simp only
      rw [(lineageLoop_iff items (nodes := []) (nodes' := nodes) (by simp)).2 ⟨nodes, by simp, h3, by simpa using h4⟩]
      rfl

theorem subLineage_some {nodes : List LNode} {c : Cert} {sub : List LNode} (h : subLineage nodes c = some sub) :
    ∃ post, nodes = sub ++ post ∧ ∃ last, sub.getLast? = some last ∧ last.cert.raw = c.raw := by
  induction nodes generalizing sub with
  | nil => simp [subLineage] at h
  | cons n ns ih =>
    unfold subLineage at h
    split at h
    · rename_i he
      simp only [Option.some.injEq] at h
      subst h
      exact ⟨ns, rfl, n, rfl, he⟩
    · cases hs : subLineage ns c with
      | none => rw [hs] at h; simp at h
      | some s =>
        rw [hs] at h
        simp only [Option.map_some, Option.some.injEq] at h
        subst h
        obtain ⟨post, h1, last, h2, h3⟩ := ih hs
        refine ⟨post, by rw [h1]; rfl, last, ?_, h3⟩
        rw [List.getLast?_cons, h2]; rfl

theorem subLineage_mem {nodes : List LNode} {c : Cert} (h : ∃ n ∈ nodes, n.cert.raw = c.raw) : (subLineage nodes c).isSome = true := by
  induction nodes with
  | nil => simp at h
  | cons n ns ih =>
    unfold subLineage
    split
    · rfl
    · rename_i hne
      obtain ⟨m, hm, he⟩ := h
      rcases List.mem_cons.1 hm with rfl | hm
      · exact absurd he hne
      · have := ih ⟨m, hm, he⟩
        cases hs : subLineage ns c with
        | none => rw [hs] at this; cases this
        | some s => rfl

/-- For distinct certificates, the sub-lineage is the whole lineage exactly when the certificate is the last one. -/
theorem subLineage_full {nodes : List LNode} {c : Cert} (hnd : (nodes.map (·.cert.raw)).Nodup) (hne : nodes ≠ []) :
    (∃ sub, subLineage nodes c = some sub ∧ nodes.length = sub.length) ↔
      ∀ last, nodes.getLast? = some last → last.cert.raw = c.raw := by
  constructor
  · rintro ⟨sub, h1, h2⟩ last hl
    obtain ⟨post, h3, last', h4, h5⟩ := subLineage_some h1
    have : post = [] := by
      have := congrArg List.length h3
      rw [List.length_append] at this
      exact List.length_eq_zero_iff.1 (by omega)
    subst this
    rw [h3, List.append_nil, h4] at hl
    cases hl; exact h5
  · intro h
    obtain ⟨last, hl⟩ : ∃ last, nodes.getLast? = some last := by
      cases hq : nodes.getLast? with
      | none => exact absurd (List.getLast?_eq_none_iff.1 hq) hne
      | some x => exact ⟨x, rfl⟩
    have hlast := h last hl
    have hs := subLineage_mem ⟨last, List.mem_of_getLast? hl, hlast⟩
    cases hsub : subLineage nodes c with
    | none => rw [hsub] at hs; cases hs
    | some sub =>
      refine ⟨sub, rfl, ?_⟩
      obtain ⟨post, h3, last', h4, h5⟩ := subLineage_some hsub
      rcases List.eq_nil_or_concat post with rfl | ⟨p, z, hpz⟩
      · rw [h3]; simp
      · exfalso
        have hz : z = last := by
          rw [h3, hpz] at hl
          rw [List.concat_eq_append, ← List.append_assoc, List.getLast?_append] at hl
          simpa using hl
        rw [h3, List.map_append, List.nodup_append] at hnd
        refine hnd.2.2 last'.cert.raw (List.mem_map.2 ⟨last', List.mem_of_getLast? h4, rfl⟩) z.cert.raw
          (List.mem_map.2 ⟨z, by rw [hpz, List.concat_eq_append]; simp, rfl⟩) ?_
        rw [h5, hz, hlast]

theorem LineageOK.nodup {env : Env} {b : Bytes} {nodes : List LNode} (h : LineageOK env b nodes) :
    (nodes.map (·.cert.raw)).Nodup := by
  rcases h with ⟨_, rfl⟩ | ⟨_, _, _, _, h⟩
  · simp
  · exact h

end Apk
