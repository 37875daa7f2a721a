import Verif.Proofs.StampEnd
import Verif.Props.Verdict
/-! # Source stamps (C30, C31, C32) -/
namespace Apk

/-! ## C30 -/

/-- C30, for the stamp verifier alone: a result without errors and without the missing-file warning means that there is a
    stamp block whose certificate hashes to the content of the ZIP entry, signed the given content digests for the scheme
    in use, and signed the attributes, from which the reported lineage and time are taken. -/
theorem C30_stamp_sound {env : Env} {zip : Zip} {scheme : Nat} {minSdk maxSdk : Int} {block : Option Bytes} {digests : Digests}
    {r : StampRes} (hnd : KeysNodup digests) (h : verifyStamp env zip scheme minSdk maxSdk block digests = .ok (some r))
    (he : r.errors = []) (hm : SW.stampFileMissing ∉ r.warnings) :
    ∃ b c attrs, block = some b ∧ r.cert = some c ∧
      StampValid env (fun k m s => StampSigned env k minSdk maxSdk m s) zip b (stampSchemeId scheme)
        (stampDigests digests (jarManifestDigest env zip)) c attrs ∧
      (r.lineage = [] ∨ ∃ data x, attrs = some data ∧ HasStampAttr data x ∧ attrId x = stampLineageId ∧
        StampLineageOK env (x.drop 4) c r.lineage) ∧
      (r.signingTime = none ∨ ∃ data x, attrs = some data ∧ HasStampAttr data x ∧ attrId x = stampTimeId ∧
        r.signingTime = some (toI64 (leNat ((x.drop 4).take 8)))) :=
  verifyStamp_sound hnd h he hm

/-- Conversely a valid stamp is reported without errors. -/
theorem C30_stamp_complete {env : Env} {zip : Zip} {scheme : Nat} {minSdk maxSdk : Int} {b : Bytes} {digests : Digests}
    {c : Cert} {attrs : Option Bytes} (hnd : KeysNodup digests)
    (h : StampValid env (fun k m s => StampSignedAll env k minSdk maxSdk m s) zip b (stampSchemeId scheme)
        (stampDigests digests (jarManifestDigest env zip)) c attrs) :
    ∃ r, verifyStamp env zip scheme minSdk maxSdk (some b) digests = .ok (some r) ∧ r.errors = [] :=
  verifyStamp_complete hnd h

/-- C30, for the whole verification: when an APK is accepted and its stamp has no error (and the stamp file is there),
    the stamp certificate signed content digests which are those of this file — or, on platforms that do not look at the
    signing block, the digest of the JAR manifest. -/
theorem C30_stamp_end_to_end {env : Env} {zip : Zip} {file head area cd rec : Bytes} {minSdk maxSdk : Int} {out : Outcome}
    {res : VRes} {s : StampRes} (hl : ApkLayout file head area cd rec)
    (h : verifySigningBlock env zip file minSdk maxSdk = .ok out) (herr : out.err = none) (hres : out.res = some res)
    (hs : res.stamp = some s) (he : s.errors = []) (hm : SW.stampFileMissing ∉ s.warnings) :
    ∃ ps b c attrs look, PairArea area ps ∧ lastVal ps 0x6dff800d = some b ∧ s.cert = some c ∧
      StampValid env (fun k m s => StampSigned env k minSdk maxSdk m s) zip b (stampSchemeId res.core.schemeId) look c attrs ∧
      ((maxSdk < 24 ∧ ∀ t, look t = if t = .nonChunked256 then some (jarManifestDigest env zip) else none) ∨
       ((∃ t d, look t = some d) ∧ ∀ t d, look t = some d → contentDigest env t (signedSections head cd rec) = some d)) := by
  rcases located_inv hl h with ⟨e, h1, _⟩ | ⟨ps, st, q, r, v3, dg, stamp, fr, ha, _, hmn, hq, hw, hst, _, hr, hle⟩
  · rw [herr] at h1; cases h1
  · rw [hres] at hr
    cases hr
    simp only at hs
    subst hs
    have hre : r.errors = [] := by
      rw [herr] at hle
      exact lastError_none.1 hle.symm
    obtain ⟨hnd, hdg⟩ := fallback_digests hl (r0 := { extraBlocks := st.extra, warnings := st.warnings }) rfl hq hw
    obtain ⟨b, c, attrs, hb, hc, hv, _, _⟩ := verifyStamp_sound hnd hst he hm
    rw [hmn.blocks] at hb
    have hu : usedId blockIdSourceStampV2 maxSdk := Or.inr (Or.inr (Or.inr rfl))
    rw [if_pos hu] at hb
    refine ⟨ps, b, c, attrs, _, ha, hb, hc, hv, ?_⟩
    rcases hdg hre with ⟨h1, rfl⟩ | ⟨h1, h2⟩
    · left
      exact ⟨h1, fun t => by unfold stampDigests; rw [if_pos rfl]⟩
    · right
      obtain ⟨h3, h4⟩ := stampDigests_cd hnd h1 (jarManifestDigest env zip)
      exact ⟨h3, fun t d htd => h2 (t, d) (h4 t d htd)⟩

/-- Caveat: a block with a certificate but without the ZIP entry only gives a warning, whatever else the block holds. -/
theorem C30_missing_entry_only_warns {env : Env} {zip : Zip} {scheme : Nat} {minSdk maxSdk : Int} {digests : Digests}
    {c : Cert} (enc rest tail : Bytes) (h1 : Small (lp enc ++ rest)) (h2 : Small enc) (hc : env.parseCertAndr enc = some c)
    (hz : zip.file (b!"stamp-cert-sha256") = none) :
    verifyStamp env zip scheme minSdk maxSdk (some (lp (lp enc ++ rest) ++ tail)) digests =
      .ok (some { cert := some c, warnings := [.stampFileMissing] }) := by
  unfold verifyStamp
  simp only
  rw [rdLP_lp _ tail h1]
  simp only
  rw [rdLP_lp enc rest h2]
  simp only
  rw [hc]
  simp only
  rw [show zip.file stampEntryName = none from hz]
  rfl

/-- The other way round an entry without a block is an error. -/
theorem C30_missing_block_is_an_error {env : Env} {zip : Zip} {scheme : Nat} {minSdk maxSdk : Int} {digests : Digests} {f : ZFile}
    (hz : zip.file (b!"stamp-cert-sha256") = some f) :
    ∃ r, verifyStamp env zip scheme minSdk maxSdk none digests = .ok (some r) ∧ r.errors ≠ [] := by
  unfold verifyStamp
  simp only
  rw [show zip.file stampEntryName = some f from hz]
  exact ⟨_, rfl, by simp [StampRes.addError]⟩

namespace Toy

/-- A stamp block by key `k` with the given signature records for scheme `id`, and signed attributes. -/
def stampBlock (k : Bytes) (id : Nat) (sigs : List Bytes) (rest : Bytes) : Bytes :=
  lp (lp (0xC0 :: k) ++ lp (lpSeq [leBytes 4 id ++ lp (lpSeq sigs)]) ++ rest)

/-- Attributes: the signing time. -/
def stampAttrs : Bytes := lp (lpSeq [leBytes 4 0xe43c5946 ++ leBytes 8 1700000000])

/-- The attribute part signed by `k`. -/
def stampAttrPart (k : Bytes) : Bytes := lp stampAttrs ++ lp (lpSeq [algRec 0x0103 (sign k stampAttrs)])

/-- The ZIP reader of a stamped APK. -/
def stampZip (k : Bytes) : Zip :=
  ⟨[], fun n => if n = (b!"stamp-cert-sha256") then some { name := n, readAll := fun _ => some (env.sha256 (0xC0 :: k)) } else none⟩

/-- An APK signed with v2 by `k1` and stamped by `k2`. -/
def psStamp : List (Nat × Bytes) :=
  psV2 ++ [(0x6dff800d, stampBlock k2 2 [algRec 0x0103 (sign k2 (pairMsg 1 digest))] (stampAttrPart k2))]

/-- The stamp of an outcome. -/
def stampSummary (o : Outcome) : Option E × Option (Option StampRes) := (o.err, o.res.map (·.stamp))

end Toy

/-- The hypotheses of `C30_stamp_end_to_end` are met: a stamped APK, its stamp valid with signing time. -/
example : ∃ out res s, verifySigningBlock Toy.env (Toy.stampZip Toy.k2) (Toy.apkOf Toy.psStamp) 24 35 = .ok out ∧ out.err = none ∧
    out.res = some res ∧ res.stamp = some s ∧ s.errors = [] ∧ SW.stampFileMissing ∉ s.warnings ∧ s.signingTime = some 1700000000 ∧
    ∃ head area cd rec, ApkLayout (Toy.apkOf Toy.psStamp) head area cd rec := by
  obtain ⟨out, h1, h2⟩ := Toy.of_check (x := verifySigningBlock Toy.env (Toy.stampZip Toy.k2) (Toy.apkOf Toy.psStamp) 24 35)
    (P := fun o => decide (Toy.stampSummary o =
      (none, some (some { cert := some (Toy.certOf Toy.k2), signingTime := some 1700000000 })))) (by decide +kernel)
  have h3 := of_decide_eq_true h2
  have e1 := congrArg Prod.fst h3
  have e2 := congrArg Prod.snd h3
  simp only [Toy.stampSummary] at e1 e2
  obtain ⟨res, hr, hs⟩ := Option.map_eq_some_iff.1 e2
  exact ⟨out, res, _, h1, e1, hr, hs, rfl, by simp, rfl, _, _, _, _,
    Toy.apkOf_layout Toy.psStamp (by decide +kernel) (by unfold Zip64Before; decide +kernel)⟩

/-! ## C31 -/

theorem nodup_of_keys {m : Digests} (h : KeysNodup m) : m.Nodup := by
  induction m with
  | nil => exact List.nodup_nil
  | cons x xs ih =>
    unfold KeysNodup at h ih
    rw [List.map_cons, List.nodup_cons] at h
    exact List.nodup_cons.2 ⟨fun hx => h.1 (List.mem_map.2 ⟨x, hx, rfl⟩), ih h.2⟩


/-- C31: the string that is signed depends only on the digest map, not on the iteration order: it is the list of the
    present pairs by algorithm. -/
theorem C31_order_independent (env env' : Env) {cd cd' : Digests} (h : KeysNodup cd) (hp : cd.Perm cd') :
    signatureSchemeDigest env cd = signatureSchemeDigest env' cd' := by
  rw [signatureSchemeDigest_eq env h, signatureSchemeDigest_eq env' (h.perm hp.symm)]
  congr 1
  exact funext (fun t => (mget_perm h hp.symm t).symm)

/-- The string is the specified one. -/
theorem C31_canonical (env : Env) {cd : Digests} (h : KeysNodup cd) :
    signatureSchemeDigest env cd = stampMsg (mget cd) := signatureSchemeDigest_eq env h

/-- C31: distinct maps give distinct strings. -/
theorem C31_injective (env env' : Env) {cd cd' : Digests} (h : KeysNodup cd) (h' : KeysNodup cd')
    (hs : ∀ p ∈ cd, p.2.length + 8 < 2 ^ 31) (hs' : ∀ p ∈ cd', p.2.length + 8 < 2 ^ 31)
    (he : signatureSchemeDigest env cd = signatureSchemeDigest env' cd') : cd.Perm cd' := by
  rw [signatureSchemeDigest_eq env h, signatureSchemeDigest_eq env' h'] at he
  have hi := stampMsg_inj (fun t d ht => hs (t, d) (mget_mem ht)) (fun t d ht => hs' (t, d) (mget_mem ht)) he
  have key : ∀ {m : Digests}, KeysNodup m → ∀ p, p ∈ m ↔ mget m p.1 = some p.2 :=
    fun hm p => ⟨fun hp => mget_of_mem hm hp, fun hg => mget_mem hg⟩
  have n1 : cd.Nodup := nodup_of_keys h
  have n2 : cd'.Nodup := nodup_of_keys h'
  rw [List.perm_ext_iff_of_nodup n1 n2]
  intro p
  rw [key h, key h', congrFun hi p.1]

example : KeysNodup [(CD.chunked512, [1, 2]), (CD.chunked256, [3])] ∧
    (∀ p ∈ [(CD.chunked512, ([1, 2] : Bytes)), (CD.chunked256, [3])], p.2.length + 8 < 2 ^ 31) ∧
    stampMsg (mget [(CD.chunked512, [1, 2]), (CD.chunked256, [3])]) =
      [9, 0, 0, 0, 1, 0, 0, 0, 1, 0, 0, 0, 3, 10, 0, 0, 0, 2, 0, 0, 0, 2, 0, 0, 0, 1, 2] := by
  refine ⟨?_, ?_, ?_⟩
  · unfold KeysNodup; decide
  · decide
  · decide +kernel

/-- A stamp signature is tied to the content: if one signed string is a valid stamp message for two sets of content
    digests, the sets are equal. -/
theorem C31_binds_digests {look look' : CD → Option Bytes} (h1 : ∀ t d, look t = some d → d.length + 8 < 2 ^ 31)
    (h2 : ∀ t d, look' t = some d → d.length + 8 < 2 ^ 31) (h : stampMsg look = stampMsg look') : look = look' :=
  stampMsg_inj h1 h2 h

/-! ## C32 -/

theorem stampSig_unique {recs : List Bytes} (hw : StampSigsWF recs) {a : Nat} {s s' : Bytes} (h : StampSig recs a s)
    (h' : StampSig recs a s') : s = s' := by
  have e1 := mget_of_mem (sigMap_nodup recs [] (by simp [KeysNodup])) ((sigMap_mem hw (p := (a, s))).2 h)
  have e2 := mget_of_mem (sigMap_nodup recs [] (by simp [KeysNodup])) ((sigMap_mem hw (p := (a, s'))).2 h')
  rw [e1] at e2
  exact Option.some.inj e2


/-- The strongest of a list, for platforms up to `v`. -/
theorem exists_strongest (v : Int) : ∀ (ch : List (Nat × Bytes)), (∃ p ∈ ch, platformOf p.1 ≤ v) →
    ∃ p ∈ ch, platformOf p.1 ≤ v ∧ ∀ q ∈ ch, platformOf q.1 ≤ v → algStrength q.1 ≤ algStrength p.1 := by
  intro ch
  induction ch with
  | nil => rintro ⟨p, hp, _⟩; cases hp
  | cons x xs ih =>
    intro hex
    by_cases hxs : ∃ p ∈ xs, platformOf p.1 ≤ v
    · obtain ⟨p, hp, hv, hmax⟩ := ih hxs
      by_cases hx : platformOf x.1 ≤ v ∧ algStrength p.1 < algStrength x.1
      · refine ⟨x, List.mem_cons_self, hx.1, fun q hq hqv => ?_⟩
        rcases List.mem_cons.1 hq with rfl | hq
        · exact Nat.le_refl _
        · exact Nat.le_trans (hmax q hq hqv) (Nat.le_of_lt hx.2)
      · refine ⟨p, List.mem_cons_of_mem _ hp, hv, fun q hq hqv => ?_⟩
        rcases List.mem_cons.1 hq with rfl | hq
        · exact Nat.le_of_not_lt (fun hlt => hx ⟨hqv, hlt⟩)
        · exact hmax q hq hqv
    · obtain ⟨p, hp, hv⟩ := hex
      rcases List.mem_cons.1 hp with rfl | hp
      · refine ⟨p, List.mem_cons_self, hv, fun q hq hqv => ?_⟩
        rcases List.mem_cons.1 hq with rfl | hq
        · exact Nat.le_refl _
        · exact absurd ⟨q, hq, hqv⟩ hxs
      · exact absurd ⟨p, hp, hv⟩ hxs

/-- C32 (first part): when a list of stamp signatures is accepted, every platform `v` of the range that understands some
    of the signatures has one of maximal strength among those it understands, and that one is valid; and the platform
    `minSdk` understands one.
    (Partial: the choice among signatures of equal strength depends on the map order, see the witness below.) -/
theorem C32_strongest_verified_partial {env : Env} {minSdk maxSdk : Int} {data : Bytes} {c : Cert} {sigs : Bytes} {r r' : StampRes}
    (h : stampVerifySignature env minSdk maxSdk data c sigs r = .ok (r', true)) :
    ∃ recs, LPList sigs recs ∧ StampSigsWF recs ∧
      (∀ v ≤ maxSdk, (∃ a s, StampSig recs a s ∧ platformOf a ≤ v) →
        ∃ a s, StampSig recs a s ∧ platformOf a ≤ v ∧ SigValid env c.key a data s ∧
          ∀ a' s', StampSig recs a' s' → platformOf a' ≤ v → algStrength a' ≤ algStrength a) ∧
      ∃ a s, StampSig recs a s ∧ platformOf a ≤ minSdk := by
  rcases stampVerify_sound h with ⟨_, _, recs, ch, hl, hw, h1, h2, p, hp, hpm⟩ | ⟨h, _⟩
  · refine ⟨recs, hl, hw, ?_, p.1, p.2, (h1 p hp).1, hpm⟩
    intro v hv ⟨a, s, hs, ha⟩
    obtain ⟨p0, hp0, e0, _⟩ := h2 a s hs (by omega)
    obtain ⟨q, hq, hqv, hmax⟩ := exists_strongest v ch ⟨p0, hp0, by omega⟩
    refine ⟨q.1, q.2, (h1 q hq).1, hqv, (h1 q hq).2.2, fun a' s' hs' ha' => ?_⟩
    obtain ⟨p1, hp1, e1, e2⟩ := h2 a' s' hs' (by omega)
    exact Nat.le_trans e2 (hmax p1 hp1 (by omega))
  · cases h

/-- C32 (second part): a list none of whose signatures is understood by `minSdk` is rejected with an error. -/
theorem C32_minimum_covered {env : Env} {minSdk maxSdk : Int} {data : Bytes} {c : Cert} {sigs : Bytes} {r r' : StampRes} {ok : Bool}
    (hn : ∀ recs, LPList sigs recs → ∀ a s, StampSig recs a s → minSdk < platformOf a)
    (h : stampVerifySignature env minSdk maxSdk data c sigs r = .ok (r', ok)) : ok = false ∧ ∃ es, es ≠ [] ∧ r'.errors = r.errors ++ es := by
  rcases stampVerify_sound h with ⟨_, _, recs, ch, hl, hw, h1, h2, p, hp, hpm⟩ | ⟨h, hf⟩
  · have := hn recs hl p.1 p.2 (h1 p hp).1
    omega
  · obtain ⟨es, h1, h2⟩ := hf
    exact ⟨h, es, h1, h2⟩

/-- C32 (completeness): if every strongest signature is valid, the list is accepted whatever the map order. -/
theorem C32_complete {env : Env} {minSdk maxSdk : Int} {data : Bytes} {c : Cert} {sigs : Bytes}
    (h : StampSignedAll env c.key minSdk maxSdk data sigs) (r : StampRes) :
    ∃ r', stampVerifySignature env minSdk maxSdk data c sigs r = .ok (r', true) ∧ r'.errors = r.errors := by
  obtain ⟨r', h1, h2⟩ := stampVerify_complete h r
  exact ⟨r', h1, h2.errors⟩

/-- Without ties the verdict does not depend on the map order: if no two signatures for the same platform have the same
    strength, acceptance for one order implies acceptance for every order. -/
theorem C32_order_independent_without_ties {env env' : Env} {minSdk maxSdk : Int} {data : Bytes} {c : Cert} {sigs : Bytes}
    {r r' : StampRes} (hval : ∀ key a d s, SigValid env key a d s → SigValid env' key a d s)
    (hties : ∀ recs, LPList sigs recs → ∀ a s a' s', StampSig recs a s → StampSig recs a' s' → platformOf a = platformOf a' →
      algStrength a = algStrength a' → a = a')
    (h : stampVerifySignature env minSdk maxSdk data c sigs r = .ok (r', true)) :
    ∃ r'', stampVerifySignature env' minSdk maxSdk data c sigs r = .ok (r'', true) := by
  rcases stampVerify_sound h with ⟨_, _, recs, ch, hl, hw, h1, h2, p, hp, hpm⟩ | ⟨h, _⟩
  · have : StampSignedAll env' c.key minSdk maxSdk data sigs := by
      refine ⟨recs, hl, hw, fun a s hs ha hmax => ?_, p.1, p.2, (h1 p hp).1, (h1 p hp).2.1, hpm⟩
      obtain ⟨q, hq, e1, e2⟩ := h2 a s hs ha
      have e3 := hmax q.1 q.2 (h1 q hq).1 e1
      have e4 := hties recs hl a s q.1 q.2 hs (h1 q hq).1 e1.symm (by omega)
      have e5 : q.2 = s := by
        have := (h1 q hq).1
        rw [← e4] at this
        exact stampSig_unique hw this hs
      rw [← e5, e4]
      exact hval _ _ _ _ (h1 q hq).2.2
    obtain ⟨r'', h3, _⟩ := stampVerify_complete this r
    exact ⟨r'', h3⟩
  · cases h

namespace Toy

/-- The same environment with reversed map order. -/
def envRev : Env := { env with mapOrder := List.reverse, mapOrder_perm := fun l => List.reverse_perm l }

/-- A stamp with a good RSA signature and a bad DSA signature: same platform, same strength. -/
def psTie : List (Nat × Bytes) :=
  psV2 ++ [(0x6dff800d, stampBlock k2 2 [algRec 0x0103 (sign k2 (pairMsg 1 digest)), algRec 0x0301 []] [])]

end Toy

/-- C32 is false for ties: the verdict on this stamp depends on the map order. -/
theorem C32_tie_witness :
    (∃ out, verifySigningBlock Toy.env (Toy.stampZip Toy.k2) (Toy.apkOf Toy.psTie) 24 35 = .ok out ∧
      Toy.stampSummary out = (none, some (some { cert := some (Toy.certOf Toy.k2) }))) ∧
    (∃ out, verifySigningBlock Toy.envRev (Toy.stampZip Toy.k2) (Toy.apkOf Toy.psTie) 24 35 = .ok out ∧
      Toy.stampSummary out = (none, some (some { cert := some (Toy.certOf Toy.k2), errors := [.verify .asn1Sig] }))) := by
  constructor
  · obtain ⟨out, h1, h2⟩ := Toy.of_check (x := verifySigningBlock Toy.env (Toy.stampZip Toy.k2) (Toy.apkOf Toy.psTie) 24 35)
      (P := fun o => decide (Toy.stampSummary o = (none, some (some { cert := some (Toy.certOf Toy.k2) })))) (by decide +kernel)
    exact ⟨out, h1, of_decide_eq_true h2⟩
  · obtain ⟨out, h1, h2⟩ := Toy.of_check (x := verifySigningBlock Toy.envRev (Toy.stampZip Toy.k2) (Toy.apkOf Toy.psTie) 24 35)
      (P := fun o => decide (Toy.stampSummary o = (none, some (some { cert := some (Toy.certOf Toy.k2), errors := [.verify .asn1Sig] }))))
      (by decide +kernel)
    exact ⟨out, h1, of_decide_eq_true h2⟩

/-- The hypotheses of the C32 theorems are met: an RSA and an ECDSA signature list. -/
example : ∃ r', stampVerifySignature Toy.env 24 35 [7] (Toy.certOf Toy.k2) (lpSeq [Toy.algRec 0x0103 (Toy.sign Toy.k2 [7])]) {} = .ok (r', true) := by
  have h : (match stampVerifySignature Toy.env 24 35 [7] (Toy.certOf Toy.k2) (lpSeq [Toy.algRec 0x0103 (Toy.sign Toy.k2 [7])]) {} with
    | .ok (_, b) => b | .error _ => false) = true := by decide +kernel
  split at h
  · rename_i r b heq
    subst h; exact ⟨r, heq⟩
  · cases h

end Apk
