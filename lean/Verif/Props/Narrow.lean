import Verif.Props.Ranges
import Verif.Props.Attack
import Verif.Proofs.Functional
/-! # C81: a verdict for a range of platform versions and the verdicts for narrower ranges -/
namespace Apk

section
variable {env : Env} {zip : Zip} {file : Bytes} {a b c d : Int} {out out' : Outcome}

/-- A v2 signer list that satisfies the checks for a later platform satisfies those for an earlier one, when the blocks its
    attributes may name are still reported. -/
theorem V2Block.earlier {present present' : Nat → Prop} {block : Bytes} {vs : List V2View} (h : V2Block env b present block vs)
    (hd : d ≤ b) (hp : 28 ≤ d → ∀ id, (∃ k, schemeBlock k = some id) → present id → present' id) :
    V2Block env d present' block vs := by
  obtain ⟨signers, tail, l, h1, h2, h3, h4, h5, h6⟩ := h
  refine ⟨signers, tail, l, h1, h2, h3, h4, fun p hp' => ?_, h6⟩
  obtain ⟨a1, a2, a3, a4, a5, a6, a7, a8, a9, a10, a11, a12, a13, a14, b1, b2, b3, b4, b5, b6, b7, b8, b9, b10, b11, b12, b13,
    b14, b15, b16⟩ := h5 p hp'
  refine ⟨a1, a2, a3, a4, a5, a6, a7, a8, a9, a10, a11, a12, a13, a14, b1, b2, b3, b4, b5, b6, b7, b8, b9, b10, b11, b12, b13,
    b14, b15, fun x hx => ⟨(b16 x hx).1, fun c1 c2 => ?_⟩⟩
  obtain ⟨d1, bid, d2, d3⟩ := (b16 x hx).2 c1 (by omega)
  exact ⟨d1, bid, d2, hp c2 _ ⟨_, d2⟩ d3⟩

/-- A v3 signer list that satisfies the checks for a later platform satisfies those for an earlier one; below Android 13 the
    rotation attribute is not looked at. -/
theorem V3Block.earlier {r r' : Int} {block : Bytes} {vs : List V3View} (h : V3Block env b r block vs) (hd : d ≤ b)
    (hr : 33 ≤ d → r' = r) : V3Block env d r' block vs := by
  obtain ⟨signers, tail, l, h1, h2, h3, h4, h5, h6⟩ := h
  refine ⟨signers, tail, l, h1, h2, h3, h4, fun p hp => ?_, h6⟩
  obtain ⟨signedData, mn, mx, sigs, pk, tl, sigRecs, sig, digests, certs, smin, smax, attrs, tail', digestRecs, attrRecs, main, more,
    q1, q2, q3, q4, q5, q6, q7, q8, q9, q10, q11, q12, q13, q14, q15, q16, q17, q18, q19, q20, q21, q22, q23, q24, q25, q26, q27, q28⟩ := h5 p hp
  refine ⟨signedData, mn, mx, sigs, pk, tl, sigRecs, sig, digests, certs, smin, smax, attrs, tail', digestRecs, attrRecs, main, more,
    q1, q2, q3, q4, q5, q6, q7, q8, q9, q10, q11, q12, q13, q14, q15, q16, q17, q18, q19, q20, q21, q22, q23, q24, q25, q26, ?_, q28⟩
  intro x hx
  obtain ⟨x1, x2, x3⟩ := q27 x hx
  refine ⟨x1, x2, fun e hm => ?_⟩
  obtain ⟨y1, y2, y3⟩ := x3 e (by omega)
  rw [hr hm]
  exact ⟨y1, y2, y3⟩

/-- Coverage of a range is coverage of every narrower range, with the same lineage. -/
theorem V3Covers.narrow {vs : List V3View} {lo hi lo' hi' : Int} {top : Option (List LNode)} (h : V3Covers vs lo hi top)
    (h1 : lo ≤ lo') (h2 : hi' ≤ hi) : V3Covers vs lo' hi' top := by
  obtain ⟨s, l, u, p, cg, q1, q2, g⟩ := h
  exact ⟨s, l, u, p, cg, by omega, by omega, g⟩

/-- v2 on a narrower range. -/
theorem Verdict.narrow_v2 {secs : List Bytes} {ps : List (Nat × Bytes)} {cs : List (List Cert)} {top : Option (List LNode)}
    (h : Verdict env secs a b ps 2 cs top) (h24 : 24 ≤ d) (hd : d ≤ b) : Verdict env secs c d ps 2 cs none := by
  cases h with
  | v2 hs n31 n3 hb hA h10 =>
    refine .v2 h24 (fun k => n31 (by omega)) (fun k => n3 (by omega)) hb ⟨hA.1.earlier hd ?_, hA.2⟩ h10
    rintro h28 id ⟨k, hk⟩ ⟨e1, e2⟩
    refine ⟨?_, e2⟩
    unfold schemeBlock at hk
    unfold extraId at e1 ⊢
    split at hk
    · have := Option.some.inj hk; subst this; exact absurd (e1.2.2.2.1 rfl) (by omega)
    · split at hk
      · have := Option.some.inj hk; subst this; exact absurd (n3 (by omega)) e2
      · split at hk
        · have := Option.some.inj hk; subst this
          have := e1.2.2.2.2.2 rfl
          exact ⟨by decide, by decide, by decide, fun k => absurd k (by decide), fun k => absurd k (by decide), fun _ => by omega⟩
        · cases hk

/-- v2 after a failed v3, on a range that ends before Android 9. -/
theorem Fallback.narrow {secs : List Bytes} {ps : List (Nat × Bytes)} {stale : List (List Cert)} {vs : List V2View}
    (h : Fallback env secs a b ps stale vs) (h24 : 24 ≤ d) (hd : d < 28) : Verdict env secs c d ps 2 (vs.map V2View.chain) none := by
  cases h with
  | mk hs hmin n31 h3 hf hb hA h10 =>
    exact .v2 h24 (fun k => by omega) (fun k => by omega) hb ⟨hA.1.earlier (by omega) (fun k => by omega), hA.2⟩ (by omega)

/-- v3 on a narrower range. -/
theorem Verdict.narrow_v3 {secs : List Bytes} {ps : List (Nat × Bytes)} {cs : List (List Cert)} {top : Option (List LNode)}
    (h : Verdict env secs a b ps 3 cs top) (hc : a ≤ c) (h28 : 28 ≤ d) (hd : d ≤ b) : Verdict env secs c d ps 3 cs top := by
  cases h with
  | v3 hs n31 hb hA =>
    obtain ⟨q1, q2, q3, q4⟩ := hA
    exact .v3 h28 (fun k => n31 (by omega)) hb ⟨q1.earlier hd (fun _ => rfl), q2, q3, q4.narrow (by omega) hd⟩

/-- v3.1 on a narrower range whose end the v3.1 signers target. -/
theorem V31Accepts.narrow {secs : List Bytes} {b31 b3 : Bytes} {vs vs3 : List V3View} {top top3 : Option (List LNode)}
    (h : V31Accepts env secs a b b31 b3 vs vs3 top top3) (hc : a ≤ c) (hd : d ≤ b) (hrot : ∃ v ∈ vs, v.minSdk ≤ d) :
    V31Accepts env secs c d b31 b3 vs vs3 top top3 := by
  obtain ⟨q1, q2, q3, q4, q5, q6, q7⟩ := h
  refine ⟨q1.earlier hd (fun _ => rfl), q2, ?_, q4.earlier hd (fun _ => rfl), q5, q6, ?_⟩
  · obtain ⟨s, lo, hi, p, cg, r1, r2, g⟩ := q3
    obtain ⟨v, hv, hvd⟩ := hrot
    have := (cg.low (fun w hw => q1.good w (p.mem_iff.1 hw)) v (p.mem_iff.2 hv)).1
    exact ⟨s, lo, hi, p, cg, by omega, by omega, g⟩
  · refine q7.narrow (by omega) ?_
    split <;> omega

/-- C81, v2: an APK accepted through its v2 block for the platforms `[a, b]` is accepted through it for every range that
    ends in `[24, b]`, when it has no v3 block or the range ends before Android 9; the certificates are the same, except
    that those left over from a failed v3 verification (C24) are gone. -/
theorem C81_v2_narrower_range {head area cd rec : Bytes} {ps : List (Nat × Bytes)} (hl : ApkLayout file head area cd rec)
    (ha : PairArea area ps) (h : verifySigningBlock env zip file a b = .ok out) (he : out.err = none)
    (hs : out.res.map (·.core.schemeId) = some 2) (h24 : 24 ≤ d) (hd : d ≤ b) (h3 : lastVal ps idV3 = none ∨ d < 28)
    (h' : verifySigningBlock env zip file c d = .ok out') :
    out'.err = none ∧ out'.res.map (·.core.schemeId) = some 2 ∧
    ∃ stale certs, out.res.map (·.core.certs) = some (stale ++ certs) ∧ out'.res.map (·.core.certs) = some certs ∧
      (lastVal ps idV3 = none ∨ b < 28 → stale = []) := by
  obtain ⟨ps', res, ha', r1, _, hV⟩ := verdict_sound hl h he
  have := pairArea_unique ha ha'
  subst this
  rw [r1] at hs
  simp only [Option.map_some, Option.some.injEq] at hs
  rcases hV with hV | ⟨stale, vs, hF, _, hcs, _⟩
  · rw [hs] at hV
    obtain ⟨e1, res', e2, _, e3, e4, _⟩ := verdict_complete hl ha h' (hV.narrow_v2 h24 hd)
    exact ⟨e1, by rw [e2]; simp [e3], [], res.core.certs, by rw [r1]; rfl, by rw [e2]; simp [e4], fun _ => rfl⟩
  · have hd28 : d < 28 := by
      rcases h3 with h3 | h3
      · cases hF with
        | mk _ _ _ k _ _ _ _ => rw [h3] at k; cases k
      · exact h3
    obtain ⟨e1, res', e2, _, e3, e4, _⟩ := verdict_complete hl ha h' (hF.narrow h24 hd28)
    refine ⟨e1, by rw [e2]; simp [e3], stale, vs.map V2View.chain, by rw [r1]; simp [hcs], by rw [e2]; simp [e4], fun k => ?_⟩
    cases hF with
    | mk k1 _ _ k2 _ _ _ _ =>
      rcases k with k | k
      · rw [k] at k2; cases k2
      · omega

/-- C81, v3: an APK accepted through its v3 block for the platforms `[a, b]` is accepted through it, with the same
    certificates, for every narrower range that ends at Android 9 or later. -/
theorem C81_v3_narrower_range (h : verifySigningBlock env zip file a b = .ok out) (he : out.err = none)
    (hs : out.res.map (·.core.schemeId) = some 3) (hc : a ≤ c) (h28 : 28 ≤ d) (hd : d ≤ b)
    (h' : verifySigningBlock env zip file c d = .ok out') :
    out'.err = none ∧ out'.res.map (·.core.schemeId) = some 3 ∧ out'.res.map (·.core.certs) = out.res.map (·.core.certs) := by
  obtain ⟨head, area, cd, rec, ps, res, hl, ha, r1, _, hV⟩ := accepted h he
  rw [r1] at hs ⊢
  simp only [Option.map_some, Option.some.injEq] at hs ⊢
  rcases hV with hV | ⟨_, _, _, hs2, _⟩
  · rw [hs] at hV
    obtain ⟨e1, res', e2, _, e3, e4, _⟩ := verdict_complete hl ha h' (hV.narrow_v3 hc h28 hd)
    exact ⟨e1, by rw [e2]; simp [e3], by rw [e2]; simp [e4]⟩
  · rw [hs] at hs2; cases hs2

/-- C81, v3.1: for an APK accepted through its v3.1 block for `[a, b]`, the signers of that block decide what happens on a
    narrower range `[c, d]`: when one of them targets a version up to `d` (and `33 ≤ d`) the APK is accepted through v3.1 with
    the same certificates; when all of them start later and `28 ≤ d < 33`, it is accepted through its v3 block, with the
    certificates of that block; when all of them start later and `33 ≤ d`, it is rejected. -/
theorem C81_v31_narrower_range (h : verifySigningBlock env zip file a b = .ok out) (he : out.err = none)
    (hs : out.res.map (·.core.schemeId) = some 31) (hc : a ≤ c) (hd : d ≤ b)
    (h' : verifySigningBlock env zip file c d = .ok out') :
    ∃ head area cd rec ps b31 b3 vs vs3, ApkLayout file head area cd rec ∧ PairArea area ps ∧
      lastVal ps idV31 = some b31 ∧ lastVal ps idV3 = some b3 ∧ V3Block env b 0 b31 vs ∧ V3Block env b (rotationOf vs) b3 vs3 ∧
      out.res.map (·.core.certs) = some (vs.map V3View.chain) ∧
      (33 ≤ d → (∃ v ∈ vs, v.minSdk ≤ d) → out'.err = none ∧ out'.res.map (·.core.schemeId) = some 31 ∧
        out'.res.map (·.core.certs) = out.res.map (·.core.certs)) ∧
      (28 ≤ d → d < 33 → (∀ v ∈ vs, d < v.minSdk) → out'.err = none ∧ out'.res.map (·.core.schemeId) = some 3 ∧
        out'.res.map (·.core.certs) = some (vs3.map V3View.chain)) ∧
      (33 ≤ d → (∀ v ∈ vs, d < v.minSdk) → out'.err ≠ none) := by
  obtain ⟨head, area, cd, rec, ps, res, hl, ha, r1, _, hV⟩ := accepted h he
  rw [r1] at hs ⊢
  simp only [Option.map_some, Option.some.injEq] at hs ⊢
  rcases hV with hV | ⟨_, _, _, hs2, _⟩
  case inr => rw [hs] at hs2; cases hs2
  rw [hs] at hV
  generalize hcs : res.core.certs = cs at hV ⊢
  generalize hln : res.core.lineage.map Lineage.nodes = ln at hV
  cases hV with
  | @v31 b31 b3 vs vs3 _ top3 h33 hb31 hb3 hA =>
    refine ⟨head, area, cd, rec, ps, b31, b3, vs, vs3, hl, ha, hb31, hb3, hA.1, hA.2.2.2.1, rfl, ?_, ?_, ?_⟩
    · intro h33' hrot
      obtain ⟨e1, res', e2, _, e3, e4, _⟩ := verdict_complete hl ha h' (.v31 h33' hb31 hb3 (hA.narrow hc hd hrot))
      exact ⟨e1, by rw [e2]; simp [e3], by rw [e2]; simp [e4]⟩
    · intro h28 hlt hlate
      obtain ⟨q1, q2, q3, q4, q5, q6, q7⟩ := hA
      have hcov : V3Covers vs3 (max c 28) d top3 := by
        refine q7.narrow (by omega) ?_
        split
        · exact hd
        · rename_i hr
          obtain ⟨v, hv, e⟩ := (C20_rotation_is_minimum q1.good hr).1
          have := hlate v hv
          omega
      obtain ⟨e1, res', e2, _, e3, e4, _⟩ := verdict_complete hl ha h'
        (.v3 h28 (fun k => by omega) hb3 ⟨q4.earlier hd (fun k => by omega), q5, q6, hcov⟩)
      exact ⟨e1, by rw [e2]; simp [e3], by rw [e2]; simp [e4]⟩
    · intro h33' hlate he'
      obtain ⟨ps', res', ha', _, _, hV'⟩ := verdict_sound hl h' he'
      have := pairArea_unique ha ha'
      subst this
      have key : ∀ {ws ws3 : List V3View} {t t3 : Option (List LNode)},
          ¬ V31Accepts env (signedSections head cd rec) c d b31 b3 ws ws3 t t3 := by
        intro ws ws3 t t3 hB
        have hv : ws = vs := hB.1.unique hA.1
        subst hv
        obtain ⟨v, hv, k, _⟩ := (hB.2.2.1.ranges hB.1.good).1 d (Int.le_refl _) (Int.le_refl _)
        have := hlate v hv
        omega
      rcases hV' with hV' | ⟨_, _, hF, _⟩
      · generalize res'.core.certs = cs' at hV'
        generalize res'.core.lineage.map Lineage.nodes = ln' at hV'
        generalize res'.core.schemeId = s' at hV'
        cases hV' with
        | old k => omega
        | v31 _ k31 k3 hB =>
          rw [hb31] at k31; rw [hb3] at k3
          cases k31; cases k3
          exact key hB
        | v3 _ n _ _ => rw [n h33'] at hb31; cases hb31
        | v2 _ n _ _ _ _ => rw [n h33'] at hb31; cases hb31
      · cases hF with
        | mk _ _ n _ _ _ _ _ => rw [n h33'] at hb31; cases hb31

end

namespace Toy
/-- A v3 block for this APK and a v2 block for some other APK. -/
def psBrokenV2 : List (Nat × Bytes) :=
  [(idV3, block [v3signer k1 digest 28 0x7fffffff 28 0x7fffffff []]), (idV2, block [v2signer k1 otherDigest []])]
/-- A v3.1 block that starts at 34 and its v3 base block. -/
def psLate31 : List (Nat × Bytes) :=
  [(idV31, block [v3signer k2 digest 34 0x7fffffff 34 0x7fffffff []]), (idV3, block [v3signer k1 digest 28 33 28 33 []])]
end Toy

/-- C81, the limits: an accepted range says nothing about the platforms before Android 9 when v3 was used. An APK with a valid
    v3 block and a v2 block made for another APK is accepted for Android 7 to 15 and rejected for Android 7 alone; an APK
    rotated at 34 is accepted for 24 to 35 and for 24 to 32 but rejected for 24 to 33. -/
theorem C81_wide_range_hides_rejections :
    (∃ (env : Env) (zip : Zip) (file : Bytes) (out out' : Outcome), verifySigningBlock env zip file 24 35 = .ok out ∧ out.err = none ∧
      verifySigningBlock env zip file 24 24 = .ok out' ∧ out'.err ≠ none ∧ out'.res.map (·.core.schemeId) = some 2) ∧
    (∃ (env : Env) (zip : Zip) (file : Bytes) (out out' out'' : Outcome), verifySigningBlock env zip file 24 35 = .ok out ∧ out.err = none ∧
      verifySigningBlock env zip file 24 32 = .ok out' ∧ out'.err = none ∧
      verifySigningBlock env zip file 24 33 = .ok out'' ∧ out''.err ≠ none) := by
  constructor
  · obtain ⟨o1, h1, s1⟩ := Toy.run_sum (ps := Toy.psBrokenV2) (a := 24) (b := 35) (some (3, [[Toy.certOf Toy.k1]], []), none) (by decide +kernel)
    obtain ⟨o2, h2, s2⟩ := Toy.of_check (x := Toy.run Toy.psBrokenV2 24 24)
      (P := fun o => o.err.isSome && decide (o.res.map (·.core.schemeId) = some 2)) (by decide +kernel)
    simp only [Bool.and_eq_true, decide_eq_true_eq] at s2
    exact ⟨_, _, _, o1, o2, h1, Toy.sum_err s1, h2, (fun e => by rw [e] at s2; cases s2.1), s2.2⟩
  · obtain ⟨o1, h1, s1⟩ := Toy.run_sum (ps := Toy.psLate31) (a := 24) (b := 35) (some (31, [[Toy.certOf Toy.k2]], []), none) (by decide +kernel)
    obtain ⟨o2, h2, s2⟩ := Toy.run_sum (ps := Toy.psLate31) (a := 24) (b := 32) (some (3, [[Toy.certOf Toy.k1]], []), none) (by decide +kernel)
    obtain ⟨o3, h3, s3⟩ := Toy.of_check (x := Toy.run Toy.psLate31 24 33) (P := fun o => o.err.isSome) (by decide +kernel)
    exact ⟨_, _, _, o1, o2, o3, h1, Toy.sum_err s1, h2, Toy.sum_err s2, h3, fun e => by rw [e] at s3; cases s3⟩

/-- `C81_v2_narrower_range` applied: accepted for 24 to 35, hence for 26 alone. -/
example : ∃ out', Toy.run Toy.psV2 26 26 = .ok out' ∧ out'.err = none ∧ out'.res.map (·.core.schemeId) = some 2 := by
  obtain ⟨out, h, hs⟩ := Toy.runV2
  obtain ⟨res, h1, h2, _⟩ := Toy.sum_res hs
  obtain ⟨o2, h', _⟩ := Toy.of_check (x := Toy.run Toy.psV2 26 26) (P := fun _ => true) (by decide +kernel)
  obtain ⟨a1, a2, _⟩ := C81_v2_narrower_range Toy.layoutV2 Toy.pairAreaV2 h (Toy.sum_err hs) (by rw [h1]; simp [h2]) (by decide) (by decide)
    (.inr (by decide)) h'
  exact ⟨o2, h', a1, a2⟩

/-- The same after a fallback: the leftover certificate of `k2` is gone on the narrower range. -/
example : ∃ out', Toy.run Toy.psStale 24 27 = .ok out' ∧ out'.err = none ∧ out'.res.map (·.core.schemeId) = some 2 := by
  obtain ⟨out, h, hs⟩ := Toy.runStale
  obtain ⟨res, h1, h2, _⟩ := Toy.sum_res hs
  obtain ⟨o2, h', _⟩ := Toy.of_check (x := Toy.run Toy.psStale 24 27) (P := fun _ => true) (by decide +kernel)
  obtain ⟨a1, a2, _⟩ := C81_v2_narrower_range Toy.layoutStale Toy.pairAreaStale h (Toy.sum_err hs) (by rw [h1]; simp [h2]) (by decide) (by decide)
    (.inr (by decide)) h'
  exact ⟨o2, h', a1, a2⟩

/-- `C81_v3_narrower_range` applied. -/
example : ∃ out', Toy.run Toy.psV3 30 31 = .ok out' ∧ out'.err = none ∧ out'.res.map (·.core.schemeId) = some 3 := by
  obtain ⟨out, h, hs⟩ := Toy.runV3
  obtain ⟨res, h1, h2, _⟩ := Toy.sum_res hs
  obtain ⟨o2, h', _⟩ := Toy.of_check (x := Toy.run Toy.psV3 30 31) (P := fun _ => true) (by decide +kernel)
  obtain ⟨a1, a2, _⟩ := C81_v3_narrower_range h (Toy.sum_err hs) (by rw [h1]; simp [h2]) (by decide) (by decide) (by decide) h'
  exact ⟨o2, h', a1, a2⟩

/-- The hypotheses of `C81_v31_narrower_range` are met, with the end of the range on either side of the rotation. -/
example : ∃ out o1 o2 o3, Toy.run Toy.psLate31 24 35 = .ok out ∧ out.err = none ∧ out.res.map (·.core.schemeId) = some 31 ∧
    Toy.run Toy.psLate31 24 34 = .ok o1 ∧ Toy.run Toy.psLate31 24 33 = .ok o2 ∧ Toy.run Toy.psLate31 28 32 = .ok o3 := by
  obtain ⟨out, h, hs⟩ := Toy.run_sum (ps := Toy.psLate31) (a := 24) (b := 35) (some (31, [[Toy.certOf Toy.k2]], []), none) (by decide +kernel)
  obtain ⟨res, h1, h2, _⟩ := Toy.sum_res hs
  obtain ⟨o1, k1, _⟩ := Toy.of_check (x := Toy.run Toy.psLate31 24 34) (P := fun _ => true) (by decide +kernel)
  obtain ⟨o2, k2, _⟩ := Toy.of_check (x := Toy.run Toy.psLate31 24 33) (P := fun _ => true) (by decide +kernel)
  obtain ⟨o3, k3, _⟩ := Toy.of_check (x := Toy.run Toy.psLate31 28 32) (P := fun _ => true) (by decide +kernel)
  exact ⟨out, o1, o2, o3, h, Toy.sum_err hs, by rw [h1]; simp [h2], k1, k2, k3⟩

end Apk
