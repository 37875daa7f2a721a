import Verif.Proofs.Sign
import Verif.Proofs.Functional
import Verif.ToyApk
/-! # C71: what is signed according to the published description is accepted -/
namespace Apk
open Sign

/-- The verdict for a file. -/
def AcceptedAs (env : Env) (zip : Zip) (file : Bytes) (minSdk maxSdk : Int) (scheme : Nat) (certs : List (List Cert)) : Prop :=
  ∃ out res, verifySigningBlock env zip file minSdk maxSdk = .ok out ∧ out.err = none ∧ out.res = some res ∧ res.core.errors = [] ∧
    res.core.schemeId = scheme ∧ res.core.certs = certs

/-- Verity digests need entries that end at a page boundary. -/
def Paged (u : Unsigned) (s : Signer) : Prop := s.alg ∈ [0x0421, 0x0423, 0x0425] → u.head.length % 4096 = 0

theorem verdict_run {env : Env} {zip : Zip} {u : Unsigned} (hu : u.Ok) {ps : List (Nat × Bytes)} (hs : (u.signed ps).length < 2147483648) (hx : u.Last ps)
    (hid : ∀ p ∈ ps, p.1 < 2 ^ 32 ∧ p.1 ≠ 0x2146444e ∧ p.1 ≠ 0x6dff800d ∧ p.2 ≠ []) {minSdk maxSdk : Int} {s : Nat} {cs : List (List Cert)}
    {top : Option (List LNode)} (hV : Verdict env u.sections minSdk maxSdk ps s cs top) :
    ∃ out res, verifySigningBlock env zip (u.signed ps) minSdk maxSdk = .ok out ∧ out.err = none ∧ out.res = some res ∧ res.core.errors = [] ∧
      res.core.schemeId = s ∧ res.core.certs = cs ∧ Verdict env u.sections minSdk maxSdk ps s cs (res.core.lineage.map Lineage.nodes) := by
  have hfr : frostingValues ps = [] := by
    unfold frostingValues
    rw [List.map_eq_nil_iff, List.filter_eq_nil_iff]
    intro p hp; simpa using (hid p hp).2.1
  have hst : lastVal ps 0x6dff800d = none := by
    cases h : lastVal ps 0x6dff800d with
    | none => rfl
    | some v => exact absurd rfl (hid _ (lastVal_mem h)).2.2.1
  have hsec := sign_sections u hu (u.head ++ sigBlock (encPairs ps)).length
  rw [← hsec] at hV
  obtain ⟨out, res, h1, h2, h3, h4, h5, h6, h7⟩ := accept_total (zip := zip) (sign_layout u hu ps hs hx)
    (sign_area hu hs (fun p hp => (hid p hp).1) (fun p hp => (hid p hp).2.2.2)) hfr hst hV
  rw [hsec] at h7
  exact ⟨out, res, h1, h2, h3, h4, h5, h6, h7⟩

theorem attrId_rotation (rot : Nat) : attrId (rotationAttr rot) = 0x559f8b02 := by
  unfold attrId rotationAttr
  rw [List.take_left' (leBytes_length 4 _), leNat_leBytes]

theorem attrId_lineage (ms : List Member) : attrId (lineageAttr ms) = 0x3ba06f8c := by
  unfold attrId lineageAttr
  rw [List.take_left' (leBytes_length 4 _), leNat_leBytes]

/-- The lineage of a v3.1 verdict with one signer is that of the signer. -/
theorem top_of_verdict {env : Env} {secs : List Bytes} {minSdk maxSdk : Int} {ps : List (Nat × Bytes)} {cs : List (List Cert)} {t : Option (List LNode)}
    {b31 : Bytes} {v : V3View} {ns : List LNode} (h : Verdict env secs minSdk maxSdk ps 31 cs t) (l31 : lastVal ps idV31 = some b31)
    (hb : V3Block env maxSdk 0 b31 [v]) (hv : v.lineage = some ns) : t = some ns := by
  cases h with
  | v31 hs h31 h3 h =>
    rw [l31] at h31
    have e := Option.some.inj h31
    subst e
    have e := V3Block.unique h.1 hb
    subst e
    obtain ⟨sorted, lo, hi, hp, _, _, _, _, hg⟩ := h.2.2.1
    have hmem : ∀ w ∈ sorted, w = v := fun w hw => List.mem_singleton.1 (hp.mem_iff.1 hw)
    cases t with
    | none =>
      have := hg v (hp.mem_iff.2 (List.mem_singleton.2 rfl))
      rw [hv] at this; cases this
    | some t =>
      obtain ⟨⟨w, hw, he⟩, _⟩ := hg
      rw [hmem w hw, hv] at he
      exact he.symm

theorem accepted_of_verdict {env : Env} {zip : Zip} {u : Unsigned} (hu : u.Ok) {ps : List (Nat × Bytes)} (hs : (u.signed ps).length < 2147483648) (hx : u.Last ps)
    (hid : ∀ p ∈ ps, p.1 < 2 ^ 32 ∧ p.1 ≠ 0x2146444e ∧ p.1 ≠ 0x6dff800d ∧ p.2 ≠ []) {minSdk maxSdk : Int} {s : Nat} {cs : List (List Cert)}
    {top : Option (List LNode)} (hV : Verdict env u.sections minSdk maxSdk ps s cs top) : AcceptedAs env zip (u.signed ps) minSdk maxSdk s cs := by
  obtain ⟨out, res, h1, h2, h3, h4, h5, h6, _⟩ := verdict_run (zip := zip) hu hs hx hid hV
  exact ⟨out, res, h1, h2, h3, h4, h5, h6⟩

theorem lastVal_hit (id : Nat) (v : Bytes) (ps : List (Nat × Bytes)) (h : lastVal ps id = none) : lastVal ((id, v) :: ps) id = some v := by
  rw [lastVal_cons, h]; simp

theorem lastVal_miss (k id : Nat) (v : Bytes) (ps : List (Nat × Bytes)) (h : k ≠ id) : lastVal ((k, v) :: ps) id = lastVal ps id := by
  rw [lastVal_cons, if_neg h]; simp

theorem id_ok {id : Nat} {v : Bytes} (h : id = idV2 ∨ id = idV3 ∨ id = idV31) (hv : v ≠ []) : id < 2 ^ 32 ∧ id ≠ 0x2146444e ∧ id ≠ 0x6dff800d ∧ v ≠ [] := by
  rcases h with rfl | rfl | rfl <;> exact ⟨by decide, by decide, by decide, hv⟩

/-- The verdict of v2 for a list of good signers. -/
theorem v2_accepts {env : Env} {u : Unsigned} (hu : u.Ok) {l : List (Signer × Cert × List Cert)} (hne : l ≠ [])
    (hg : ∀ p ∈ l, p.1.Good env p.2.1 p.2.2 ∧ Paged u p.1) {attrs : List Bytes} {maxSdk : Int} {present : Nat → Prop} (hat : ∀ x ∈ attrs, V2AttrOK maxSdk present x)
    (hs : (signers (l.map (fun p => signerV2 env u attrs p.1))).length < 2147483648) (hz : u.head.length + u.cd.length < 2147483648) :
    V2Accepts env u.sections maxSdk present (signers (l.map (fun p => signerV2 env u attrs p.1)))
      (l.map (fun p => ⟨p.2.1 :: p.2.2, p.1.alg, digestFor env u p.1.alg⟩)) := by
  refine ⟨v2_block (fun p hp => (hg p hp).1) hat hs, by simpa using hne, fun p hp => ?_⟩
  simp only [v2Digests, List.map_map, List.mem_map, Function.comp_apply] at hp
  obtain ⟨q, hq, rfl⟩ := hp
  exact digest_defined hu hz (hg q hq).2

/-- C71: an APK signed with v2 by one to ten signers is accepted, with the certificates of the signers in order. -/
theorem C71_signed_v2_accepted (env : Env) (zip : Zip) (u : Unsigned) (hu : u.Ok) (l : List (Signer × Cert × List Cert)) (hne : l ≠ []) (h10 : l.length ≤ 10)
    (hg : ∀ p ∈ l, p.1.Good env p.2.1 p.2.2 ∧ Paged u p.1) (hs : (u.signed (pairsV2 env u (l.map (·.1)))).length < 2147483648) (hx : u.Last (pairsV2 env u (l.map (·.1)))) (minSdk maxSdk : Int) (hm : 24 ≤ maxSdk) :
    AcceptedAs env zip (u.signed (pairsV2 env u (l.map (·.1)))) minSdk maxSdk 2 (l.map (fun p => p.2.1 :: p.2.2)) := by
  have hs' := hs
  rw [pairs_length u _ hu] at hs'
  have hmm : (l.map (·.1)).map (signerV2 env u []) = l.map (fun p => signerV2 env u [] p.1) := by simp [Function.comp_def]
  have hps : pairsV2 env u (l.map (·.1)) = [(idV2, signers (l.map (fun p => signerV2 env u [] p.1)))] := by rw [pairsV2, hmm]
  rw [hps] at hs hs' hx ⊢
  have hb := encPairs_mem_len (List.mem_singleton.2 rfl : (idV2, signers (l.map (fun p => signerV2 env u [] p.1))) ∈ [(idV2, signers (l.map (fun p => signerV2 env u [] p.1)))])
  simp only at hb
  have hV : Verdict env u.sections minSdk maxSdk [(idV2, signers (l.map (fun p => signerV2 env u [] p.1)))] 2
      ((l.map (fun p => (⟨p.2.1 :: p.2.2, p.1.alg, digestFor env u p.1.alg⟩ : V2View))).map V2View.chain) none := by
    refine .v2 hm (fun _ => ?_) (fun _ => ?_) (lastVal_hit _ _ _ (lastVal_nil _)) (v2_accepts hu hne hg (by simp) (by omega) (by omega)) (by simpa using h10)
    · rw [lastVal_miss _ _ _ _ (by decide), lastVal_nil]
    · rw [lastVal_miss _ _ _ _ (by decide), lastVal_nil]
  have := accepted_of_verdict (zip := zip) hu hs hx (fun p hp => by rw [List.mem_singleton.1 hp]; exact id_ok (.inl rfl) (signers_ne _)) hV
  simpa [Function.comp_def] using this

/-- C71: an APK signed with v2 and v3 is accepted on every platform from Android 7 on: as v3 from Android 9, as v2 before. -/
theorem C71_signed_v2_v3_accepted (env : Env) (zip : Zip) (u : Unsigned) (hu : u.Ok) (s : Signer) (main : Cert) (more : List Cert) (g : s.Good env main more)
    (hp : Paged u s) (hs : (u.signed (pairsV2V3 env u s)).length < 2147483648) (hx : u.Last (pairsV2V3 env u s)) (minSdk maxSdk : Int) (hm : 24 ≤ maxSdk) (hM : maxSdk ≤ 2147483647) :
    AcceptedAs env zip (u.signed (pairsV2V3 env u s)) minSdk maxSdk (if 28 ≤ maxSdk then 3 else 2) [main :: more] := by
  have hs' := hs
  rw [pairs_length u _ hu] at hs'
  have hb2 := encPairs_mem_len (ps := pairsV2V3 env u s) (List.mem_cons_self ..)
  have hb3 := encPairs_mem_len (ps := pairsV2V3 env u s) (List.mem_cons_of_mem _ (List.mem_singleton.2 rfl))
  simp only at hb2 hb3
  have hid : ∀ p ∈ pairsV2V3 env u s, p.1 < 2 ^ 32 ∧ p.1 ≠ 0x2146444e ∧ p.1 ≠ 0x6dff800d ∧ p.2 ≠ [] := by
    intro p hp
    rcases List.mem_cons.1 hp with rfl | hp
    · exact id_ok (.inl rfl) (signers_ne _)
    · rw [List.mem_singleton.1 hp]; exact id_ok (.inr (.inl rfl)) (signers_ne _)
  have l31 : lastVal (pairsV2V3 env u s) idV31 = none := by
    unfold pairsV2V3
    rw [lastVal_miss _ _ _ _ (by decide), lastVal_miss _ _ _ _ (by decide), lastVal_nil]
  have l3 : lastVal (pairsV2V3 env u s) idV3 = some (signers [signerV3 env u [] s 28 2147483647]) := by
    unfold pairsV2V3
    rw [lastVal_miss _ _ _ _ (by decide), lastVal_hit _ _ _ (lastVal_nil _)]
  have l2 : lastVal (pairsV2V3 env u s) idV2 = some (signers [signerV2 env u [alsoV3] s]) := by
    unfold pairsV2V3
    rw [lastVal_hit]
    rw [lastVal_miss _ _ _ _ (by decide), lastVal_nil]
  by_cases h28 : 28 ≤ maxSdk
  · rw [if_pos h28]
    refine accepted_of_verdict (zip := zip) hu hs hx hid (top := none) (.v3 (vs := [⟨main :: more, s.alg, digestFor env u s.alg, 28, 2147483647, 28, 2147483647, none⟩]) h28 (fun _ => l31) l3 ⟨?_, by simp, ?_, ?_⟩)
    · exact v3_block (mn := 28) (mx := 2147483647) g (by decide) (by decide) (by decide) (by simp) (by intro x hx; cases hx) (by omega)
    · intro p hp'
      rw [List.mem_singleton.1 hp']
      exact digest_defined hu (by omega) hp
    · exact covers_one ⟨main :: more, s.alg, digestFor env u s.alg, 28, 2147483647, 28, 2147483647, none⟩ (by show (28 : Int) ≤ _; omega) hM
  · rw [if_neg h28]
    have := v2_accepts (env := env) hu (l := [(s, main, more)]) (by simp) (by intro p hp'; rw [List.mem_singleton.1 hp']; exact ⟨g, hp⟩) (attrs := [alsoV3]) (maxSdk := maxSdk)
      (present := ExtraPresent (pairsV2V3 env u s) maxSdk) ?_ (by show (signers [signerV2 env u [alsoV3] s]).length < _; omega) (by omega)
    · exact accepted_of_verdict (zip := zip) hu hs hx hid (.v2 (vs := [⟨main :: more, s.alg, digestFor env u s.alg⟩]) hm (fun _ => l31) (fun h => absurd h h28) l2 this (by simp))
    · intro x hx
      rw [List.mem_singleton.1 hx]
      exact ⟨by decide, fun _ h => absurd h h28⟩

/-- C71: an APK whose key was changed, signed with v2 and v3 by the old signer and with v3.1 by the new one, is accepted: as v2 before
    Android 9 and as v3 before Android 13, with the certificates of the old signer. -/
theorem C71_signed_rotated_accepted_before (env : Env) (zip : Zip) (u : Unsigned) (hu : u.Ok) (old new : Signer) (main : Cert) (more : List Cert)
    (g : old.Good env main more) (hp : Paged u old) (ms : List Member) (rot : Nat) (hr : 33 ≤ rot) (hr' : rot ≤ 2147483647)
    (hs : (u.signed (pairsRotated env u old new ms rot)).length < 2147483648) (hx : u.Last (pairsRotated env u old new ms rot)) (minSdk maxSdk : Int) (hm : 24 ≤ maxSdk) (hM : maxSdk < 33) :
    AcceptedAs env zip (u.signed (pairsRotated env u old new ms rot)) minSdk maxSdk (if 28 ≤ maxSdk then 3 else 2) [main :: more] := by
  have hs' := hs
  rw [pairs_length u _ hu] at hs'
  have hb2 := encPairs_mem_len (ps := pairsRotated env u old new ms rot) (List.mem_cons_self ..)
  have hb3 := encPairs_mem_len (ps := pairsRotated env u old new ms rot) (List.mem_cons_of_mem _ (List.mem_cons_self ..))
  simp only at hb2 hb3
  have hid : ∀ p ∈ pairsRotated env u old new ms rot, p.1 < 2 ^ 32 ∧ p.1 ≠ 0x2146444e ∧ p.1 ≠ 0x6dff800d ∧ p.2 ≠ [] := by
    intro p hp
    rcases List.mem_cons.1 hp with rfl | hp
    · exact id_ok (.inl rfl) (signers_ne _)
    · rcases List.mem_cons.1 hp with rfl | hp
      · exact id_ok (.inr (.inl rfl)) (signers_ne _)
      · rw [List.mem_singleton.1 hp]; exact id_ok (.inr (.inr rfl)) (signers_ne _)
  have l31 : NoV31 (pairsRotated env u old new ms rot) maxSdk := fun h => absurd h (by omega)
  have l3 : lastVal (pairsRotated env u old new ms rot) idV3 = some (signers [signerV3 env u [rotationAttr rot] old 28 (rot - 1)]) := by
    unfold pairsRotated
    rw [lastVal_miss _ _ _ _ (by decide), lastVal_hit]
    rw [lastVal_miss _ _ _ _ (by decide), lastVal_nil]
  have l2 : lastVal (pairsRotated env u old new ms rot) idV2 = some (signers [signerV2 env u [alsoV3] old]) := by
    unfold pairsRotated
    rw [lastVal_hit]
    rw [lastVal_miss _ _ _ _ (by decide), lastVal_miss _ _ _ _ (by decide), lastVal_nil]
  by_cases h28 : 28 ≤ maxSdk
  · rw [if_pos h28]
    refine accepted_of_verdict (zip := zip) hu hs hx hid (top := none) (.v3 (vs := [⟨main :: more, old.alg, digestFor env u old.alg, 28, (rot - 1 : Nat), 28, (rot - 1 : Nat), none⟩]) h28 l31 l3 ⟨?_, by simp, ?_, ?_⟩)
    · refine v3_block (mn := 28) (mx := rot - 1) g (by decide) (by omega) (by omega) ?_ ?_ (by omega)
      · intro x hx
        rw [List.mem_singleton.1 hx]
        refine ⟨by simp [rotationAttr], fun h => absurd h ?_, fun _ h => absurd h (by omega)⟩
        rw [attrId_rotation]; decide
      · intro x hx h
        rw [List.mem_singleton.1 hx, attrId_rotation] at h
        exact absurd h (by decide)
    · intro p hp'
      rw [List.mem_singleton.1 hp']
      exact digest_defined hu (by omega) hp
    · exact covers_one ⟨main :: more, old.alg, digestFor env u old.alg, 28, (rot - 1 : Nat), 28, (rot - 1 : Nat), none⟩ (by show (28 : Int) ≤ _; omega) (by show _ ≤ ((rot - 1 : Nat) : Int); omega)
  · rw [if_neg h28]
    have := v2_accepts (env := env) hu (l := [(old, main, more)]) (by simp) (by intro p hp'; rw [List.mem_singleton.1 hp']; exact ⟨g, hp⟩) (attrs := [alsoV3]) (maxSdk := maxSdk)
      (present := ExtraPresent (pairsRotated env u old new ms rot) maxSdk) ?_ (by show (signers [signerV2 env u [alsoV3] old]).length < _; omega) (by omega)
    · exact accepted_of_verdict (zip := zip) hu hs hx hid (.v2 (vs := [⟨main :: more, old.alg, digestFor env u old.alg⟩]) hm l31 (fun h => absurd h h28) l2 this (by simp))
    · intro x hx
      rw [List.mem_singleton.1 hx]
      exact ⟨by decide, fun _ h => absurd h h28⟩

/-- What is read of the v3.1 block of an APK whose key was changed. -/
theorem rotated_block {env : Env} {u : Unsigned} {new : Signer} {newMain : Cert} {newMore : List Cert} (g' : new.Good env newMain newMore)
    {ms : List (Member × Cert)} (hms : ∀ p ∈ ms, p.1.Good env p.2) (hd : (ms.map (·.2.raw)).Nodup)
    (hlast : (ms.map (·.2.raw)).getLast? = some newMain.raw) {rot : Nat} (hr : 33 ≤ rot) (hr' : rot < 2147483647) {maxSdk : Int}
    (hb31 : (signers [signerV3 env u [lineageAttr (ms.map (·.1))] new rot 2147483647]).length < 2147483648) :
    V3Block env maxSdk 0 (signers [signerV3 env u [lineageAttr (ms.map (·.1))] new rot 2147483647])
      [⟨newMain :: newMore, new.alg, digestFor env u new.alg, rot, 2147483647, rot, 2147483647, some (lineageNodes none ms)⟩] := by
  have hlen : (lineageAttr (ms.map (·.1))).length < 2 ^ 31 := by
    rw [signers_length] at hb31
    have := lpSeq_mem_len (l := [signerV3 env u [lineageAttr (ms.map (·.1))] new rot 2147483647]) (List.mem_singleton.2 rfl)
    simp only [signerV3, signedDataV3, List.length_append, lp_length, lpSeq_cons, lpSeq_nil, record_length, List.length_nil, leBytes_length] at this hb31
    omega
  have hlin := lineageAttr_ok hms hlen hd
  have hne : lineageNodes none ms ≠ [] := by
    intro h
    have := lineageNodes_raw ms none
    rw [h] at this
    have : ms = [] := List.map_eq_nil_iff.1 this.symm
    rw [this] at hlast; cases hlast
  refine v3_block (mn := rot) (mx := 2147483647) g' (by omega) (by omega) (by omega) ?_ ?_ (by omega)
  · intro x hx
    rw [List.mem_singleton.1 hx]
    refine ⟨by simp [lineageAttr], fun _ => ⟨_, hlin, ?_⟩, fun h => absurd h ?_⟩
    · intro last hl
      have e := congrArg (List.map Cert.raw) (lineageNodes_raw ms none)
      rw [List.map_map, List.map_map] at e
      have e2 := congrArg List.getLast? e
      rw [List.getLast?_map, hl] at e2
      have e3 : (ms.map (Cert.raw ∘ (·.2))).getLast? = some newMain.raw := hlast
      rw [e3] at e2
      exact Option.some.inj e2
    · rw [attrId_lineage]; decide
  · exact ⟨hne, [], _, [], rfl, attrId_lineage _, hlin, by simp⟩

/-- C71: and as v3.1 from Android 13 and the given platform on, with the certificates of the new signer and the lineage from the old to
    the new one. -/
theorem C71_signed_rotated_accepted_after (env : Env) (zip : Zip) (u : Unsigned) (hu : u.Ok) (old new : Signer) (main newMain : Cert) (more newMore : List Cert)
    (g : old.Good env main more) (hp : Paged u old) (g' : new.Good env newMain newMore) (ms : List (Member × Cert)) (hms : ∀ p ∈ ms, p.1.Good env p.2)
    (hd : (ms.map (·.2.raw)).Nodup) (hlast : (ms.map (·.2.raw)).getLast? = some newMain.raw) (rot : Nat) (hr : 33 ≤ rot) (hr' : rot < 2147483647)
    (hs : (u.signed (pairsRotated env u old new (ms.map (·.1)) rot)).length < 2147483648) (hx : u.Last (pairsRotated env u old new (ms.map (·.1)) rot)) (minSdk maxSdk : Int) (hm : rot ≤ maxSdk) (hM : maxSdk ≤ 2147483647) :
    ∃ out res, verifySigningBlock env zip (u.signed (pairsRotated env u old new (ms.map (·.1)) rot)) minSdk maxSdk = .ok out ∧ out.err = none ∧
      out.res = some res ∧ res.core.errors = [] ∧ res.core.schemeId = 31 ∧ res.core.certs = [newMain :: newMore] ∧
      res.core.lineage.map Lineage.nodes = some (lineageNodes none ms) := by
  have hs' := hs
  rw [pairs_length u _ hu] at hs'
  have hb3 := encPairs_mem_len (ps := pairsRotated env u old new (ms.map (·.1)) rot) (List.mem_cons_of_mem _ (List.mem_cons_self ..))
  have hb31 := encPairs_mem_len (ps := pairsRotated env u old new (ms.map (·.1)) rot) (List.mem_cons_of_mem _ (List.mem_cons_of_mem _ (List.mem_singleton.2 rfl)))
  simp only at hb31 hb3
  have l31 : lastVal (pairsRotated env u old new (ms.map (·.1)) rot) idV31 = some (signers [signerV3 env u [lineageAttr (ms.map (·.1))] new rot 2147483647]) := by
    unfold pairsRotated
    rw [lastVal_miss _ _ _ _ (by decide), lastVal_miss _ _ _ _ (by decide), lastVal_hit _ _ _ (lastVal_nil _)]
  have l3 : lastVal (pairsRotated env u old new (ms.map (·.1)) rot) idV3 = some (signers [signerV3 env u [rotationAttr rot] old 28 (rot - 1)]) := by
    unfold pairsRotated
    rw [lastVal_miss _ _ _ _ (by decide), lastVal_hit]
    rw [lastVal_miss _ _ _ _ (by decide), lastVal_nil]
  let v31 : V3View := ⟨newMain :: newMore, new.alg, digestFor env u new.alg, rot, 2147483647, rot, 2147483647, some (lineageNodes none ms)⟩
  let v3 : V3View := ⟨main :: more, old.alg, digestFor env u old.alg, 28, (rot - 1 : Nat), 28, (rot - 1 : Nat), none⟩
  have B31 := rotated_block (maxSdk := maxSdk) (u := u) g' hms hd hlast hr hr' (by omega)
  have hrot : rotationOf [v31] = rot := by
    have e : [v31].foldr (fun v m => min v.minSdk m) (2147483647 : Int) = rot := by
      show min (rot : Int) 2147483647 = rot
      omega
    unfold rotationOf
    rw [e, if_neg (by omega)]
  have B3 : V3Block env maxSdk (rotationOf [v31]) (signers [signerV3 env u [rotationAttr rot] old 28 (rot - 1)]) [v3] := by
    rw [hrot]
    refine v3_block (mn := 28) (mx := rot - 1) g (by decide) (by omega) (by omega) ?_ ?_ (by omega)
    · intro x hx
      rw [List.mem_singleton.1 hx]
      refine ⟨by simp [rotationAttr], fun h => absurd h ?_, fun _ _ => ⟨by simp [rotationAttr], by omega, ?_⟩⟩
      · rw [attrId_rotation]; decide
      · unfold rotationAttr
        rw [List.drop_left' (leBytes_length 4 _), List.take_of_length_le (by simp), leNat_leBytes]
        have e : rot % 256 ^ 4 % 4294967296 = rot := by omega
        unfold toI32
        simp only [e]
        rw [if_pos (by omega)]
    · intro x hx h
      rw [List.mem_singleton.1 hx, attrId_rotation] at h
      exact absurd h (by decide)
  have hV : Verdict env u.sections minSdk maxSdk (pairsRotated env u old new (ms.map (·.1)) rot) 31 ([v31].map V3View.chain) (some (lineageNodes none ms)) := by
    refine .v31 (top3 := none) (vs3 := [v3]) (by omega) l31 l3 ⟨B31, by simp, ?_, B3, by simp, ?_, ?_⟩
    · exact covers_one v31 (by show (rot : Int) ≤ maxSdk; exact hm) hM
    · intro p hp'
      rw [List.mem_singleton.1 hp']
      exact digest_defined hu (by omega) hp
    · rw [hrot, if_neg (by omega)]
      exact covers_one v3 (by show (28 : Int) ≤ _; omega) (by show _ ≤ ((rot - 1 : Nat) : Int); omega)
  have hid : ∀ p ∈ pairsRotated env u old new (ms.map (·.1)) rot, p.1 < 2 ^ 32 ∧ p.1 ≠ 0x2146444e ∧ p.1 ≠ 0x6dff800d ∧ p.2 ≠ [] := by
    intro p hp
    rcases List.mem_cons.1 hp with rfl | hp
    · exact id_ok (.inl rfl) (signers_ne _)
    · rcases List.mem_cons.1 hp with rfl | hp
      · exact id_ok (.inr (.inl rfl)) (signers_ne _)
      · rw [List.mem_singleton.1 hp]; exact id_ok (.inr (.inr rfl)) (signers_ne _)
  obtain ⟨out, res, h1, h2, h3, h4, h5, h6, h7⟩ := verdict_run (zip := zip) hu hs hx hid hV
  refine ⟨out, res, h1, h2, h3, h4, h5, h6, ?_⟩
  generalize res.core.lineage.map Lineage.nodes = t at h7
  exact top_of_verdict h7 l31 B31 rfl

/-- C71, what is missing: between Android 13 and the platform where the new key takes over, where Android accepts such an APK by its v3
    block, the library rejects it. -/
theorem C71_rotated_rejected_between (env : Env) (zip : Zip) (u : Unsigned) (hu : u.Ok) (old new : Signer) (newMain : Cert) (newMore : List Cert)
    (g' : new.Good env newMain newMore) (ms : List (Member × Cert)) (hms : ∀ p ∈ ms, p.1.Good env p.2)
    (hd : (ms.map (·.2.raw)).Nodup) (hlast : (ms.map (·.2.raw)).getLast? = some newMain.raw) (rot : Nat) (hr : 33 ≤ rot) (hr' : rot < 2147483647)
    (hs : (u.signed (pairsRotated env u old new (ms.map (·.1)) rot)).length < 2147483648) (hx : u.Last (pairsRotated env u old new (ms.map (·.1)) rot)) (minSdk maxSdk : Int) (hm : 33 ≤ maxSdk) (hM : maxSdk < rot)
    (out : Outcome) (h : verifySigningBlock env zip (u.signed (pairsRotated env u old new (ms.map (·.1)) rot)) minSdk maxSdk = .ok out) :
    out.err ≠ none := by
  intro he
  have hs' := hs
  rw [pairs_length u _ hu] at hs'
  have hb31 := encPairs_mem_len (ps := pairsRotated env u old new (ms.map (·.1)) rot) (List.mem_cons_of_mem _ (List.mem_cons_of_mem _ (List.mem_singleton.2 rfl)))
  simp only at hb31
  have hid : ∀ p ∈ pairsRotated env u old new (ms.map (·.1)) rot, p.1 < 2 ^ 32 ∧ p.1 ≠ 0x2146444e ∧ p.1 ≠ 0x6dff800d ∧ p.2 ≠ [] := by
    intro p hp
    rcases List.mem_cons.1 hp with rfl | hp
    · exact id_ok (.inl rfl) (signers_ne _)
    · rcases List.mem_cons.1 hp with rfl | hp
      · exact id_ok (.inr (.inl rfl)) (signers_ne _)
      · rw [List.mem_singleton.1 hp]; exact id_ok (.inr (.inr rfl)) (signers_ne _)
  have l31 : lastVal (pairsRotated env u old new (ms.map (·.1)) rot) idV31 = some (signers [signerV3 env u [lineageAttr (ms.map (·.1))] new rot 2147483647]) := by
    unfold pairsRotated
    rw [lastVal_miss _ _ _ _ (by decide), lastVal_miss _ _ _ _ (by decide), lastVal_hit _ _ _ (lastVal_nil _)]
  have B31 := rotated_block (maxSdk := maxSdk) (u := u) g' hms hd hlast hr hr' (by omega)
  obtain ⟨ps, res, ha, h1, h2, h3⟩ := verdict_sound (sign_layout u hu _ hs hx) h he
  have e := pairArea_unique ha (sign_area hu hs (fun p hp => (hid p hp).1) (fun p hp => (hid p hp).2.2.2))
  subst e
  rcases h3 with h3 | ⟨stale, vs, h3, _⟩
  · generalize res.core.schemeId = k at h3
    generalize res.core.certs = cs at h3
    generalize res.core.lineage.map Lineage.nodes = t at h3
    cases h3 with
    | old h => omega
    | v3 _ h31 => rw [h31 hm] at l31; cases l31
    | v2 _ h31 => rw [h31 hm] at l31; cases l31
    | v31 _ h31 _ h =>
      rw [l31] at h31
      have e := Option.some.inj h31
      subst e
      have e := V3Block.unique h.1 B31
      subst e
      obtain ⟨sorted, lo, hi, hp, hc, hlo, _⟩ := h.2.2.1
      rw [List.perm_singleton] at hp
      subst hp
      cases hc with
      | one => exact absurd hlo (by show ¬ (rot : Int) ≤ maxSdk; omega)
      | cons => exact absurd hlo (by show ¬ (rot : Int) ≤ maxSdk; omega)
  · cases h3 with
    | mk _ _ h31 => rw [h31 hm] at l31; cases l31

/-! ## A case that meets the hypotheses -/

/-- An unsigned toy ZIP. -/
def toyUnsigned : Unsigned := ⟨Toy.head, Toy.cdir, [0, 0, 0, 0, 1, 0, 1, 0], []⟩
/-- A toy signer. -/
def toySigner (k : Bytes) : Signer := ⟨0x0103, k, [0xC0 :: k], Toy.sign k⟩
/-- A member of a toy lineage. -/
def toyMember (k : Bytes) : Member := ⟨toySigner k, 0xC0 :: k, 7⟩

theorem toyUnsigned_ok : toyUnsigned.Ok := ⟨rfl, by decide, by decide, by decide⟩

theorem last_of_nil {u : Unsigned} (h : u.comment = []) (ps : List (Nat × Bytes)) : u.Last ps := by
  intro c hc
  rw [h] at hc; cases hc

theorem toySign_valid (k data : Bytes) : SigValid Toy.env ⟨.rsa, 0, k⟩ 0x0103 data (Toy.sign k data) :=
  .inr (.inr (.inl ⟨.inl rfl, rfl, by simp [Toy.env, Toy.sign]⟩))

theorem toySigner_good (x : UInt8) : (toySigner [1, x]).Good Toy.env (Toy.certOf [1, x]) [] :=
  ⟨by simp [toySigner], rfl, rfl, ⟨.rsa, 0, [1, x]⟩, rfl, toySign_valid _⟩

theorem toyMember_good (x : UInt8) : (toyMember [1, x]).Good Toy.env (Toy.certOf [1, x]) :=
  ⟨by simp [toyMember, toySigner], by simp [toyMember], rfl, toySign_valid _⟩

/-- C71: the hypotheses are met by an APK signed by two signers with v2, -/
theorem C71_v2_example : AcceptedAs Toy.env Toy.noZip (toyUnsigned.signed (pairsV2 Toy.env toyUnsigned [toySigner Toy.k1, toySigner Toy.k2])) 1 30 2
    [[Toy.certOf Toy.k1], [Toy.certOf Toy.k2]] :=
  C71_signed_v2_accepted _ _ _ toyUnsigned_ok [(toySigner Toy.k1, Toy.certOf Toy.k1, []), (toySigner Toy.k2, Toy.certOf Toy.k2, [])] (by simp) (by simp)
    (by
      intro p hp
      rcases List.mem_cons.1 hp with rfl | hp
      · exact ⟨toySigner_good 11, fun h => absurd h (by simp [toySigner])⟩
      · rw [List.mem_singleton.1 hp]
        exact ⟨toySigner_good 22, fun h => absurd h (by simp [toySigner])⟩)
    (by decide +kernel) (last_of_nil rfl _) _ _ (by decide)

/-- by one signed with v2 and v3, -/
theorem C71_v3_example : AcceptedAs Toy.env Toy.noZip (toyUnsigned.signed (pairsV2V3 Toy.env toyUnsigned (toySigner Toy.k1))) 1 27 2 [[Toy.certOf Toy.k1]] ∧
    AcceptedAs Toy.env Toy.noZip (toyUnsigned.signed (pairsV2V3 Toy.env toyUnsigned (toySigner Toy.k1))) 1 28 3 [[Toy.certOf Toy.k1]] :=
  ⟨C71_signed_v2_v3_accepted _ _ _ toyUnsigned_ok _ _ _ (toySigner_good 11) (fun h => absurd h (by simp [toySigner])) (by decide +kernel) (last_of_nil rfl _) _ _ (by decide) (by decide),
   C71_signed_v2_v3_accepted _ _ _ toyUnsigned_ok _ _ _ (toySigner_good 11) (fun h => absurd h (by simp [toySigner])) (by decide +kernel) (last_of_nil rfl _) _ _ (by decide) (by decide)⟩

/-- and by one whose key was changed from platform 34 on; the library rejects it for platform 33. -/
theorem C71_rotated_example :
    AcceptedAs Toy.env Toy.noZip (toyUnsigned.signed (pairsRotated Toy.env toyUnsigned (toySigner Toy.k1) (toySigner Toy.k2) [toyMember Toy.k1, toyMember Toy.k2] 34)) 1 32 3 [[Toy.certOf Toy.k1]] ∧
    (∀ out, verifySigningBlock Toy.env Toy.noZip (toyUnsigned.signed (pairsRotated Toy.env toyUnsigned (toySigner Toy.k1) (toySigner Toy.k2) [toyMember Toy.k1, toyMember Toy.k2] 34)) 1 33 = .ok out → out.err ≠ none) ∧
    ∃ out res, verifySigningBlock Toy.env Toy.noZip (toyUnsigned.signed (pairsRotated Toy.env toyUnsigned (toySigner Toy.k1) (toySigner Toy.k2) [toyMember Toy.k1, toyMember Toy.k2] 34)) 1 34 = .ok out ∧
      out.err = none ∧ out.res = some res ∧ res.core.errors = [] ∧ res.core.schemeId = 31 ∧ res.core.certs = [[Toy.certOf Toy.k2]] ∧
      res.core.lineage.map Lineage.nodes = some (lineageNodes none [(toyMember Toy.k1, Toy.certOf Toy.k1), (toyMember Toy.k2, Toy.certOf Toy.k2)]) := by
  have hg : ∀ p ∈ [(toyMember Toy.k1, Toy.certOf Toy.k1), (toyMember Toy.k2, Toy.certOf Toy.k2)], p.1.Good Toy.env p.2 := by
    intro p hp
    rcases List.mem_cons.1 hp with rfl | hp
    · exact toyMember_good 11
    · rw [List.mem_singleton.1 hp]; exact toyMember_good 22
  exact ⟨C71_signed_rotated_accepted_before _ _ _ toyUnsigned_ok _ _ _ _ (toySigner_good 11) (fun h => absurd h (by simp [toySigner])) _ 34 (by decide) (by decide)
      (by decide +kernel) (last_of_nil rfl _) _ _ (by decide) (by decide),
    C71_rotated_rejected_between _ _ _ toyUnsigned_ok _ _ _ _ (toySigner_good 22) [(toyMember Toy.k1, Toy.certOf Toy.k1), (toyMember Toy.k2, Toy.certOf Toy.k2)] hg
      (by decide) rfl 34 (by decide) (by decide) (by decide +kernel) (last_of_nil rfl _) _ _ (by decide) (by decide),
    C71_signed_rotated_accepted_after _ _ _ toyUnsigned_ok _ _ _ _ _ _ (toySigner_good 11) (fun h => absurd h (by simp [toySigner])) (toySigner_good 22)
      [(toyMember Toy.k1, Toy.certOf Toy.k1), (toyMember Toy.k2, Toy.certOf Toy.k2)] hg (by decide) rfl 34 (by decide) (by decide) (by decide +kernel) (last_of_nil rfl _) _ _ (by decide) (by decide)⟩

end Apk
