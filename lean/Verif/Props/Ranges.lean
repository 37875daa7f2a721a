import Verif.Props.Signers
/-! # SDK coverage and signing lineages (C20–C22) -/
namespace Apk
set_option linter.unusedSimpArgs false

section
variable {env : Env} {zip : Zip} {file : Bytes} {minSdk maxSdk : Int} {out : Outcome} {head area cd rec : Bytes}

/-! ## C20 -/

/-- Every SDK version between `lo` and `hi` is in the range of some signer. -/
def Covered (vs : List V3View) (lo hi : Int) : Prop := ∀ sdk, lo ≤ sdk → sdk ≤ hi → ∃ v ∈ vs, v.minSdk ≤ sdk ∧ sdk ≤ v.maxSdk

/-- No SDK version is in the ranges of two signers. -/
def Disjoint (vs : List V3View) : Prop := vs.Pairwise (fun a b => ∀ sdk, ¬ (a.minSdk ≤ sdk ∧ sdk ≤ a.maxSdk ∧ b.minSdk ≤ sdk ∧ sdk ≤ b.maxSdk))

/-- No SDK version between the ranges of signers is left out. -/
def NoGap (vs : List V3View) : Prop := ∀ a ∈ vs, ∀ b ∈ vs, Covered vs a.minSdk b.maxSdk

theorem Contiguous.low {vs : List V3View} {lo hi : Int} (h : Contiguous vs lo hi) : (∀ v ∈ vs, v.Good) → ∀ v ∈ vs, lo ≤ v.minSdk ∧ v.maxSdk ≤ hi := by
  induction h with
  | one v => intro _ w hw; simp at hw; subst hw; exact ⟨Int.le_refl _, Int.le_refl _⟩
  | cons v h ih =>
    rename_i vs hi
    intro hg w hw
    have hv := hg v (by simp)
    have ih := ih (fun x hx => hg x (by simp [hx]))
    rcases List.mem_cons.1 hw with rfl | hw
    · refine ⟨Int.le_refl _, ?_⟩
      obtain ⟨v0, vs', e, e2⟩ := h.head
      have := ih v0 (by rw [e]; simp)
      have g0 := hg v0 (by rw [e]; simp)
      have := g0.2.1
      omega
    · have := ih w hw
      have := hv.2.1
      omega

theorem Contiguous.covers {vs : List V3View} {lo hi : Int} (h : Contiguous vs lo hi) : Covered vs lo hi := by
  induction h with
  | one v => intro sdk h1 h2; exact ⟨v, by simp, h1, h2⟩
  | cons v h ih =>
    intro sdk h1 h2
    by_cases hm : sdk ≤ v.maxSdk
    · exact ⟨v, by simp, h1, hm⟩
    · obtain ⟨w, hw, q⟩ := ih sdk (by omega) h2
      exact ⟨w, by simp [hw], q⟩

theorem Contiguous.disjoint {vs : List V3View} {lo hi : Int} (h : Contiguous vs lo hi) : (∀ v ∈ vs, v.Good) → Disjoint vs := by
  induction h with
  | one v => intro _; exact List.pairwise_singleton _ _
  | cons v h ih =>
    intro hg
    have hg' : ∀ x ∈ _, V3View.Good x := fun x hx => hg x (List.mem_cons_of_mem _ hx)
    refine List.pairwise_cons.2 ⟨fun w hw sdk hx => ?_, ih hg'⟩
    have := (h.low hg' w hw).1
    omega

theorem Disjoint.perm {vs vs' : List V3View} (hp : vs.Perm vs') (h : Disjoint vs) : Disjoint vs' :=
  hp.pairwise h (fun hxy sdk hx => hxy sdk ⟨hx.2.2.1, hx.2.2.2, hx.1, hx.2.1⟩)

theorem V3Covers.ranges {vs : List V3View} {lo hi : Int} {top : Option (List LNode)} (hg : ∀ v ∈ vs, v.Good)
    (h : V3Covers vs lo hi top) : Covered vs lo hi ∧ Disjoint vs ∧ NoGap vs := by
  obtain ⟨sorted, l, u, h1, h2, h3, h4, _⟩ := h
  have hg' : ∀ v ∈ sorted, v.Good := fun v hv => hg v (h1.mem_iff.1 hv)
  have hc : Covered vs l u := fun sdk a b => by
    obtain ⟨v, hv, q⟩ := h2.covers sdk a b
    exact ⟨v, h1.mem_iff.1 hv, q⟩
  refine ⟨fun sdk a b => hc sdk (by omega) (by omega), (h2.disjoint hg').perm h1, ?_⟩
  intro a ha b hb sdk q1 q2
  have k1 := (h2.low hg' a (h1.mem_iff.2 ha)).1
  have k2 := (h2.low hg' b (h1.mem_iff.2 hb)).2
  exact hc sdk (by omega) (by omega)

/-- C20: if v3 is accepted, every SDK version of the requested range from Android 9 on is targeted by a signer, no version is
    targeted by two, and the ranges leave no gap between them. -/
theorem C20_v3_range_covered (hl : ApkLayout file head area cd rec) (h : verifySigningBlock env zip file minSdk maxSdk = .ok out)
    (he : out.err = none) (hs : out.res.map (·.core.schemeId) = some 3) :
    ∃ ps b vs, PairArea area ps ∧ lastVal ps idV3 = some b ∧ V3Block env maxSdk 0 b vs ∧ out.res.map (·.core.certs) = some (vs.map V3View.chain) ∧
      Covered vs (max minSdk 28) maxSdk ∧ Disjoint vs ∧ NoGap vs := by
  obtain ⟨ps, b, vs, res, ha, hb, hr, hc, hA⟩ := accepted_v3 hl h he hs
  exact ⟨ps, b, vs, ha, hb, hA.1, by rw [hr]; simp [hc], hA.2.2.2.ranges hA.1.good⟩

/-- C20: if v3.1 is accepted, its signers cover the maximum SDK version and the v3 signers cover everything from Android 9 up
    to the version before the rotation. -/
theorem C20_v31_range_covered (hl : ApkLayout file head area cd rec) (h : verifySigningBlock env zip file minSdk maxSdk = .ok out)
    (he : out.err = none) (hs : out.res.map (·.core.schemeId) = some 31) :
    ∃ ps b b3 vs vs3, PairArea area ps ∧ lastVal ps idV31 = some b ∧ lastVal ps idV3 = some b3 ∧ V3Block env maxSdk 0 b vs ∧
      V3Block env maxSdk (rotationOf vs) b3 vs3 ∧
      (∃ v ∈ vs, v.minSdk ≤ maxSdk ∧ maxSdk ≤ v.maxSdk) ∧ Disjoint vs ∧ NoGap vs ∧
      Covered vs3 (max minSdk 28) (if rotationOf vs = 0 then maxSdk else rotationOf vs - 1) ∧ Disjoint vs3 ∧ NoGap vs3 := by
  obtain ⟨ps, b, b3, vs, vs3, top3, res, ha, hb, hb3, hr, hc, h1, h2, h3, h4, h5, h6, h7⟩ := accepted_v31 hl h he hs
  obtain ⟨c1, c2, c3⟩ := h3.ranges h1.good
  exact ⟨ps, b, b3, vs, vs3, ha, hb, hb3, h1, h4, c1 maxSdk (Int.le_refl _) (Int.le_refl _), c2, c3, h7.ranges h4.good⟩

/-- C20: rotation starts at the smallest minimum SDK version of the v3.1 signers. -/
theorem C20_rotation_is_minimum {vs : List V3View} (hg : ∀ v ∈ vs, v.Good) (h : rotationOf vs ≠ 0) :
    (∃ v ∈ vs, v.minSdk = rotationOf vs) ∧ ∀ v ∈ vs, rotationOf vs ≤ v.minSdk := by
  have key : ∀ vs : List V3View, (∀ v ∈ vs, v.Good) →
      (vs.foldr (fun v m => min v.minSdk m) 2147483647 = 2147483647 ∨ ∃ v ∈ vs, v.minSdk = vs.foldr (fun v m => min v.minSdk m) 2147483647) ∧
      ∀ v ∈ vs, vs.foldr (fun v m => min v.minSdk m) 2147483647 ≤ v.minSdk := by
    intro vs
    induction vs with
    | nil => intro _; exact ⟨.inl rfl, by simp⟩
    | cons x xs ih =>
      intro hg
      obtain ⟨i1, i2⟩ := ih (fun v hv => hg v (by simp [hv]))
      simp only [List.foldr_cons]
      generalize List.foldr (fun v m => min v.minSdk m) 2147483647 xs = m at i1 i2
      refine ⟨?_, ?_⟩
      · rcases Int.le_total x.minSdk m with hle | hle
        · rw [Int.min_eq_left hle]; exact .inr ⟨x, by simp, rfl⟩
        · rw [Int.min_eq_right hle]
          rcases i1 with i1 | ⟨v, hv, e⟩
          · exact .inl i1
          · exact .inr ⟨v, by simp [hv], e⟩
      · intro v hv
        rcases List.mem_cons.1 hv with rfl | hv
        · exact Int.min_le_left _ _
        · exact Int.le_trans (Int.min_le_right _ _) (i2 v hv)
  obtain ⟨k1, k2⟩ := key vs hg
  unfold rotationOf at h ⊢
  split at h
  · exact absurd rfl h
  · rename_i hne
    rw [if_neg hne]
    rcases k1 with k1 | k1
    · exact absurd k1 hne
    · exact ⟨k1, k2⟩

/-- C20: whatever sorted arrangement of the signers the sorting step produces, and in whatever order the signers are listed,
    finalisation adds errors for all arrangements or for none, and without errors the results are equal. -/
theorem C20_order_independent {vs vs' : List V3View} (hne : vs ≠ []) (hg : ∀ v ∈ vs, v.Good) (hp : vs'.Perm vs)
    {s s' : List SignerInfo} (hs : s.Perm (vs.map V3View.info)) (hso : s.Pairwise (fun a b => a.minSdk ≤ b.minSdk))
    (hs' : s'.Perm (vs'.map V3View.info)) (hso' : s'.Pairwise (fun a b => a.minSdk ≤ b.minSdk)) (acting : Bool)
    (rot reqMin reqMax : Int) {r : Core} (hr : r.lineage = none) :
    ((v3FinalizeSorted acting rot reqMin reqMax s r).errors = r.errors ↔ (v3FinalizeSorted acting rot reqMin reqMax s' r).errors = r.errors) ∧
    ((v3FinalizeSorted acting rot reqMin reqMax s r).errors = r.errors →
      v3FinalizeSorted acting rot reqMin reqMax s r = v3FinalizeSorted acting rot reqMin reqMax s' r) := by
  have hs2 : s'.Perm (vs.map V3View.info) := hs'.trans (hp.map _)
  obtain ⟨a1, a2⟩ := finalizeSorted_views hne hg hs hso acting rot reqMin reqMax hr
  obtain ⟨b1, b2⟩ := finalizeSorted_views hne hg hs2 hso' acting rot reqMin reqMax hr
  by_cases hc : ∃ top, V3Covers vs (reqLo acting reqMin reqMax) (reqHi rot reqMax) top
  · have heq : s = s' := by
      obtain ⟨top, sorted, lo, hi, c1, c2, _⟩ := hc
      rw [sorted_unique hg hs hso c1 c2, sorted_unique hg hs2 hso' c1 c2]
    subst heq
    exact ⟨Iff.rfl, fun _ => rfl⟩
  · obtain ⟨es, l, e1, e2⟩ := a2 hc
    obtain ⟨es', l', e1', e2'⟩ := b2 hc
    have n1 : (v3FinalizeSorted acting rot reqMin reqMax s r).errors ≠ r.errors := by rw [e2]; simpa using e1
    have n2 : (v3FinalizeSorted acting rot reqMin reqMax s' r).errors ≠ r.errors := by rw [e2']; simpa using e1'
    exact ⟨⟨fun h => absurd h n1, fun h => absurd h n2⟩, fun h => absurd h n1⟩

/-! ## C21 -/

/-- Each node after the first is signed by the key of the node before it, with the algorithm that node announces, over its
    certificate and that algorithm. -/
def TrustChain (env : Env) (nodes : List LNode) : Prop :=
  ∀ (i : Nat) (n n' : LNode), nodes[i]? = some n → nodes[i + 1]? = some n' →
    n'.parentAlgo = n.algo ∧ ∃ signedData der tail, signedData = lp der ++ leBytes 4 n'.parentAlgo ++ tail ∧ Small der ∧
      env.parseCertStd der = some n'.cert ∧ SigValid env n.cert.key n.algo signedData n'.signature

theorem ChainOK.trust {env : Env} : ∀ {bs : List Bytes} {ns : List LNode} {prev : Option LNode}, ChainOK env env.parseCertStd prev bs ns →
    TrustChain env (prev.toList ++ ns) := by
  intro bs
  induction bs with
  | nil =>
    intro ns prev h
    cases ns with
    | cons n ns => exact h.elim
    | nil =>
      intro i n n' h1 h2
      cases prev <;> simp at h2
  | cons b bs ih =>
    intro ns prev h
    cases ns with
    | nil => exact h.elim
    | cons m ns =>
      obtain ⟨h1, h2⟩ := h
      have ih := ih h2
      cases prev with
      | none => exact ih
      | some p =>
        intro i n n' q1 q2
        cases i with
        | zero =>
          simp only [Option.toList_some, List.cons_append, List.nil_append, List.getElem?_cons_zero, List.getElem?_cons_succ,
            Option.some.injEq, Nat.zero_add] at q1 q2
          subst q1; subst q2
          obtain ⟨sd, der, tail, tail', c1, c2, c3, c4, c5, c6, c7, c8, c9, c10⟩ := h1
          obtain ⟨d1, d2⟩ := c10 p rfl
          exact ⟨d2, sd, der, tail', c2, c4, c9, d1⟩
        | succ i =>
          simp only [Option.toList_some, List.cons_append, List.nil_append, List.getElem?_cons_succ] at q1 q2
          exact ih i n n' q1 q2

/-- A chain of trust that ends with the certificate of the signer `v`. -/
def LineageOfSigner (env : Env) (nodes : List LNode) (v : V3View) : Prop :=
  nodes ≠ [] ∧ TrustChain env nodes ∧ (nodes.map (·.cert.raw)).Nodup ∧
  (∀ n ∈ nodes, ∃ der, env.parseCertStd der = some n.cert) ∧
  ∃ main more last, v.chain = main :: more ∧ nodes.getLast? = some last ∧ last.cert.raw = main.raw

theorem ChainOK.parsed {env : Env} : ∀ {bs : List Bytes} {ns : List LNode} {prev : Option LNode}, ChainOK env env.parseCertStd prev bs ns →
    ∀ n ∈ ns, ∃ der, env.parseCertStd der = some n.cert := by
  intro bs
  induction bs with
  | nil =>
    intro ns prev h
    cases ns with
    | cons n ns => exact h.elim
    | nil => intro n hn; cases hn
  | cons b bs ih =>
    intro ns prev h
    cases ns with
    | nil => exact h.elim
    | cons m ns =>
      obtain ⟨h1, h2⟩ := h
      intro n hn
      rcases List.mem_cons.1 hn with rfl | hn
      · obtain ⟨sd, der, tail, tail', c1, c2, c3, c4, c5, c6, c7, c8, c9, c10⟩ := h1
        exact ⟨der, c9⟩
      · exact ih h2 n hn

theorem V3SignerOK.lineage_trust {m r : Int} {s : Bytes} {v : V3View} (h : V3SignerOK env m r s v) {nodes : List LNode}
    (hn : v.lineage = some nodes) : LineageOfSigner env nodes v := by
  obtain ⟨sd, mn, mx, sg, pk, tl, sr, sig, dg, ct, smin, smax, at_, tl', dr, ar, main, more, b1, b2, b3, b4, b5, b6, b7, b8, b9, b10, b11, b12, b13, b14,
    b15, b16, b17, b18, b19, b20, b21, b22, b23, b24, b25, b26, b27, b28⟩ := h
  rw [hn] at b28
  obtain ⟨c1, pre, x, post, c2, c3, c4, c5⟩ := b28
  obtain ⟨d1, d2, d3⟩ := b27 x (by rw [c2]; simp)
  obtain ⟨nodes', e1, e2⟩ := d2 c3
  have := e1.unique c4
  subst this
  rcases c4 with ⟨_, c4⟩ | ⟨items, f1, f2, f3, f4⟩
  · exact absurd c4 c1
  · obtain ⟨last, hlast⟩ : ∃ last, nodes'.getLast? = some last := by
      cases hg : nodes'.getLast? with
      | none => exact absurd (List.getLast?_eq_none_iff.1 hg) c1
      | some l => exact ⟨l, rfl⟩
    exact ⟨c1, f3.trust, f4, f3.parsed, main, more, last, b23, hlast, e2 last hlast⟩

theorem V3Block.lineage_trust {m r : Int} {b : Bytes} {vs : List V3View} (h : V3Block env m r b vs) {v : V3View} (hv : v ∈ vs) {nodes : List LNode}
    (hn : v.lineage = some nodes) : LineageOfSigner env nodes v := by
  obtain ⟨_, _, l, _, _, _, rfl, h, _⟩ := h
  obtain ⟨p, hp, rfl⟩ := List.mem_map.1 hv
  exact (h p hp).lineage_trust hn

/-- C21: a lineage reported by an accepting verification (scheme 3 or 3.1) is a chain of trust with different certificates that
    ends with the certificate of one of the reported signers; the same holds for the lineage of every signer. -/
theorem C21_lineage_is_chain_of_trust (hl : ApkLayout file head area cd rec) (h : verifySigningBlock env zip file minSdk maxSdk = .ok out)
    (he : out.err = none) {res : VRes} (hr : out.res = some res) (hs : res.core.schemeId = 3 ∨ res.core.schemeId = 31) :
    ∃ vs : List V3View, res.core.certs = vs.map V3View.chain ∧ (∀ v ∈ vs, ∀ nodes, v.lineage = some nodes → LineageOfSigner env nodes v) ∧
      ∀ l, res.core.lineage = some l → ∃ v ∈ vs, v.lineage = some l.nodes ∧ LineageOfSigner env l.nodes v := by
  rcases hs with hs | hs
  · obtain ⟨ps, b, vs, res', ha, hb, hr', hc, hA⟩ := accepted_v3 hl h he (by rw [hr]; simp [hs])
    rw [hr] at hr'
    have := Option.some.inj hr'
    subst this
    refine ⟨vs, hc, fun v hv nodes hn => hA.1.lineage_trust hv hn, fun l hlin => ?_⟩
    obtain ⟨sorted, lo, hi, p1, _, _, _, _, g⟩ := hA.2.2.2
    rw [hlin] at g
    obtain ⟨⟨v, hv, e⟩, _⟩ := g
    exact ⟨v, p1.mem_iff.1 hv, e, hA.1.lineage_trust (p1.mem_iff.1 hv) e⟩
  · obtain ⟨ps, b, b3, vs, vs3, top3, res', ha, hb, hb3, hr', hc, h1, h2, h3, h4, h5, h6, h7⟩ := accepted_v31 hl h he (by rw [hr]; simp [hs])
    rw [hr] at hr'
    have := Option.some.inj hr'
    subst this
    refine ⟨vs, hc, fun v hv nodes hn => h1.lineage_trust hv hn, fun l hlin => ?_⟩
    obtain ⟨sorted, lo, hi, p1, _, _, _, _, g⟩ := h3
    rw [hlin] at g
    obtain ⟨⟨v, hv, e⟩, _⟩ := g
    exact ⟨v, p1.mem_iff.1 hv, e, h1.lineage_trust (p1.mem_iff.1 hv) e⟩

/-- C21: reading a lineage succeeds exactly on chains of trust as specified (`LineageOK`), and then returns their nodes. -/
theorem C21_lineage_read_iff {b : Bytes} {nodes : List LNode} : readLineage env b = .ok (.ok nodes) ↔ LineageOK env b nodes := readLineage_iff

/-! ## C22 -/

/-- The lineage `a` is a prefix of the lineage `b`, node by node (certificates compared by their encoding). -/
def LineagePrefix (a b : List LNode) : Prop := (a.map LNode.key) <+: (b.map LNode.key)

theorem V3Covers.top_spec {vs : List V3View} {lo hi : Int} {top : Option (List LNode)} (h : V3Covers vs lo hi top) :
    (top = none ↔ ∀ v ∈ vs, v.lineage = none) ∧
    (∀ t, top = some t → (∃ v ∈ vs, v.lineage = some t) ∧ ∀ v ∈ vs, ∀ l, v.lineage = some l → LineagePrefix l t) := by
  obtain ⟨sorted, l, u, p1, _, _, _, _, g⟩ := h
  cases top with
  | none => exact ⟨⟨fun _ v hv => g v (p1.mem_iff.2 hv), fun _ => rfl⟩, fun t ht => by cases ht⟩
  | some t =>
    obtain ⟨⟨v, hv, e⟩, g2⟩ := g
    refine ⟨⟨(fun h => by cases h), fun h => ?_⟩, fun t' ht => ?_⟩
    · rw [h v (p1.mem_iff.1 hv)] at e; cases e
    · cases ht
      exact ⟨⟨v, p1.mem_iff.1 hv, e⟩, fun w hw l hl => g2 w (p1.mem_iff.2 hw) l hl⟩

/-- C22: after acceptance by v3 or v3.1 the reported lineage is absent exactly if no (reported) signer has one; otherwise it is
    the lineage of one of them and every signer's lineage is a prefix of it. -/
theorem C22_lineage_extends_all (hl : ApkLayout file head area cd rec) (h : verifySigningBlock env zip file minSdk maxSdk = .ok out)
    (he : out.err = none) {res : VRes} (hr : out.res = some res) (hs : res.core.schemeId = 3 ∨ res.core.schemeId = 31) :
    ∃ ps b vs, PairArea area ps ∧ lastVal ps (if res.core.schemeId = 3 then idV3 else idV31) = some b ∧ V3Block env maxSdk 0 b vs ∧
      res.core.certs = vs.map V3View.chain ∧
      (res.core.lineage = none ↔ ∀ v ∈ vs, v.lineage = none) ∧
      (∀ l, res.core.lineage = some l → (∃ v ∈ vs, v.lineage = some l.nodes) ∧ ∀ v ∈ vs, ∀ l', v.lineage = some l' → LineagePrefix l' l.nodes) := by
  rcases hs with hs | hs
  · obtain ⟨ps, b, vs, res', ha, hb, hr', hc, hA⟩ := accepted_v3 hl h he (by rw [hr]; simp [hs])
    rw [hr] at hr'
    have := Option.some.inj hr'
    subst this
    obtain ⟨t1, t2⟩ := hA.2.2.2.top_spec
    refine ⟨ps, b, vs, ha, by rw [hs]; exact hb, hA.1, hc, ?_, fun l hlin => t2 _ (by rw [hlin]; rfl)⟩
    rw [← t1]; simp
  · obtain ⟨ps, b, b3, vs, vs3, top3, res', ha, hb, hb3, hr', hc, h1, h2, h3, h4, h5, h6, h7⟩ := accepted_v31 hl h he (by rw [hr]; simp [hs])
    rw [hr] at hr'
    have := Option.some.inj hr'
    subst this
    obtain ⟨t1, t2⟩ := h3.top_spec
    refine ⟨ps, b, vs, ha, by rw [hs]; exact hb, h1, hc, ?_, fun l hlin => t2 _ (by rw [hlin]; rfl)⟩
    rw [← t1]; simp

/-! ## C53 -/

/-- The value of `MinSdkVersion` the code computes: Android 9, or the largest 32-bit number if a node names RSA-PSS with SHA-256. -/
theorem lineageMinSdk_eq (nodes : List LNode) :
    lineageMinSdk nodes = if ∃ n ∈ nodes, n.algo = 0x0101 then 2147483647 else 28 := by
  have key : ∀ (ns : List LNode) (m : Int), (m = 28 ∨ m = 2147483647) →
      ns.foldl (fun m n => if isSupportedAlgo n.algo then (if getMinSdkVersion n.algo > m then getMinSdkVersion n.algo else m) else m) m =
        if (∃ n ∈ ns, n.algo = 0x0101) ∨ m = 2147483647 then 2147483647 else 28 := by
    intro ns
    induction ns with
    | nil => intro m hm; rcases hm with rfl | rfl <;> simp
    | cons n ns ih =>
      intro m hm
      simp only [List.foldl_cons]
      have hstep : (if isSupportedAlgo n.algo then (if getMinSdkVersion n.algo > m then getMinSdkVersion n.algo else m) else m) =
          if n.algo = 0x0101 then 2147483647 else m := by
        by_cases h1 : n.algo = 0x0101
        · rw [if_pos h1, h1]
          rcases hm with rfl | rfl <;> decide
        · rw [if_neg h1]
          by_cases hs : isSupportedAlgo n.algo
          · rw [if_pos hs, if_neg]
            simp only [isSupportedAlgo, sigRsaPssWithSha256, sigRsaPssWithSha512, sigRsaPkcs1V15WithSha256, sigRsaPkcs1V15WithSha512,
              sigEcdsaWithSha256, sigEcdsaWithSha512, sigDsaWithSha256, sigVerityRsaPkcs1V15WithSha256, sigVerityEcdsaWithSha256,
              sigVerityDsaWithSha256, Bool.or_eq_true, beq_iff_eq] at hs
            have : getMinSdkVersion n.algo ≤ 28 := by
              rcases hs with ((((((((h | h) | h) | h) | h) | h) | h) | h) | h) | h <;> first | (exact absurd h h1) | (rw [h]; decide)
            omega
          · rw [if_neg hs]
      rw [hstep, ih _ (by split; exact .inr rfl; exact hm)]
      by_cases h1 : n.algo = 0x0101
      · simp [h1]
      · simp [h1]
  have := key nodes 28 (.inl rfl)
  unfold lineageMinSdk
  rw [this]
  by_cases h : ∃ n ∈ nodes, n.algo = 0x0101
  · rw [if_pos (.inl h), if_pos h]
  · rw [if_neg h, if_neg]
    rintro (h' | h')
    · exact h h'
    · omega

/-- C53, what holds: the minimum SDK version reported with a lineage after acceptance by v3 or v3.1 is Android 9 (28), the
    first version that knows lineages, unless a node names RSA-PSS with SHA-256; then it is 2147483647. Missing: all supported
    algorithms are usable since Android 9, so it should be 28 always. -/
theorem C53_lineage_min_sdk_partial (hl : ApkLayout file head area cd rec) (h : verifySigningBlock env zip file minSdk maxSdk = .ok out)
    (he : out.err = none) {res : VRes} (hr : out.res = some res) (hs : res.core.schemeId = 3 ∨ res.core.schemeId = 31)
    {l : Lineage} (hlin : res.core.lineage = some l) :
    l.minSdk = if ∃ n ∈ l.nodes, n.algo = 0x0101 then 2147483647 else 28 := by
  obtain ⟨ps, res', ha, hr', _, hV⟩ := verdict_sound hl h he
  rcases hV with hV | ⟨stale, vs, _, h2, _⟩
  · obtain ⟨res'', top, hr'', ht⟩ := verdict_lineage hl ha h hV
    rw [hr] at hr''
    have := Option.some.inj hr''
    subst this
    rw [hlin] at ht
    cases top with
    | none => cases ht
    | some ns =>
      simp only [mkLin, Option.map_some, Option.some.injEq] at ht
      subst ht
      exact lineageMinSdk_eq ns
  · have e : res'.core.schemeId = res.core.schemeId := by rw [Option.some.inj (hr'.symm.trans hr)]
    rw [← e, h2] at hs
    rcases hs with hs | hs <;> cases hs

end

namespace Toy
/-- A lineage attribute: `k1` hands over to `k2`. -/
def lineageAttr : Bytes :=
  let sd1 := lp (0xC0 :: k1) ++ leBytes 4 0
  let sd2 := lp (0xC0 :: k2) ++ leBytes 4 0x0103
  leBytes 4 0x3ba06f8c ++ leBytes 4 1 ++ lpSeq [lp sd1 ++ leBytes 4 7 ++ leBytes 4 0x0103 ++ lp [],
    lp sd2 ++ leBytes 4 7 ++ leBytes 4 0x0103 ++ lp (sign k1 sd2)]
/-- An APK signed by `k1` up to Android 11 and, after rotation, by `k2`. -/
def psLineage : List (Nat × Bytes) :=
  [(idV3, block [v3signer k2 digest 31 0x7fffffff 31 0x7fffffff [lineageAttr], v3signer k1 digest 28 30 28 30 []])]
theorem layoutLineage : ApkLayout (apkOf psLineage) head (encPairs psLineage) cdir (eocd cdir.length (head ++ sigBlock (encPairs psLineage)).length) :=
  apkOf_layout _ (by decide +kernel) (by unfold Zip64Before; decide +kernel)
/-- The hypotheses of C20, C21 and C22 are met by an APK with two signers, listed out of order, and a lineage of two nodes. -/
theorem runLineage : ∃ out res l, run psLineage 24 35 = .ok out ∧ out.err = none ∧ out.res = some res ∧ res.core.schemeId = 3 ∧
    res.core.certs = [[certOf k2], [certOf k1]] ∧ res.core.lineage = some l ∧ l.nodes.map (·.cert) = [certOf k1, certOf k2] := by
  obtain ⟨out, h1, h2⟩ := of_check (x := run psLineage 24 35) (P := fun o =>
    decide (summary o = (some (3, [[certOf k2], [certOf k1]], []), none)) &&
    decide (o.res.map (fun r => r.core.lineage.map (fun l => l.nodes.map (·.cert))) = some (some [certOf k1, certOf k2]))) (by decide +kernel)
  simp only [Bool.and_eq_true, decide_eq_true_eq] at h2
  obtain ⟨hs, h3⟩ := h2
  obtain ⟨res, r1, r2, r3, r4⟩ := sum_res hs
  rw [r1] at h3
  simp only [Option.map_some, Option.some.injEq] at h3
  cases hl : res.core.lineage with
  | none => rw [hl] at h3; cases h3
  | some l =>
    rw [hl] at h3
    exact ⟨out, res, l, h1, sum_err hs, r1, r2, r3, hl, Option.some.inj h3⟩
end Toy

example : ∃ out vs, Toy.run Toy.psLineage 24 35 = .ok out ∧ Covered vs 28 35 ∧ Disjoint vs ∧ NoGap vs ∧
    out.res.map (·.core.certs) = some (vs.map V3View.chain) := by
  obtain ⟨out, res, l, h, he, hr, hs, _⟩ := Toy.runLineage
  obtain ⟨ps, b, vs, _, _, _, h1, h2, h3, h4⟩ := C20_v3_range_covered Toy.layoutLineage h he (by rw [hr]; simp [hs])
  exact ⟨out, vs, h, h2, h3, h4, h1⟩
example : ∃ out res l v, Toy.run Toy.psLineage 24 35 = .ok out ∧ out.res = some res ∧ res.core.lineage = some l ∧
    LineageOfSigner Toy.env l.nodes v ∧ l.nodes.length = 2 := by
  obtain ⟨out, res, l, h, he, hr, hs, hc, hlin, hn⟩ := Toy.runLineage
  obtain ⟨vs, _, _, h1⟩ := C21_lineage_is_chain_of_trust Toy.layoutLineage h he hr (.inl hs)
  obtain ⟨v, _, _, h2⟩ := h1 l hlin
  exact ⟨out, res, l, v, h, hr, hlin, h2, by have := congrArg List.length hn; simpa using this⟩

namespace Toy
/-- The same with RSA-PSS with SHA-256 as the algorithm of `k2` for its successor. -/
def lineageAttrPss : Bytes :=
  let sd1 := lp (0xC0 :: k1) ++ leBytes 4 0
  let sd2 := lp (0xC0 :: k2) ++ leBytes 4 0x0103
  leBytes 4 0x3ba06f8c ++ leBytes 4 1 ++ lpSeq [lp sd1 ++ leBytes 4 7 ++ leBytes 4 0x0103 ++ lp [],
    lp sd2 ++ leBytes 4 7 ++ leBytes 4 0x0101 ++ lp (sign k1 sd2)]
def psLineagePss : List (Nat × Bytes) :=
  [(idV3, block [v3signer k2 digest 31 0x7fffffff 31 0x7fffffff [lineageAttrPss], v3signer k1 digest 28 30 28 30 []])]
theorem layoutLineagePss : ApkLayout (apkOf psLineagePss) head (encPairs psLineagePss) cdir (eocd cdir.length (head ++ sigBlock (encPairs psLineagePss)).length) :=
  apkOf_layout _ (by decide +kernel) (by unfold Zip64Before; decide +kernel)
end Toy

/-- C53 fails: an accepted APK whose lineage, valid on Android 9, is reported with the minimum SDK version 2147483647. -/
theorem C53_min_sdk_wrong_for_pss_sha256 : ∃ out res l, Toy.run Toy.psLineagePss 24 35 = .ok out ∧ out.err = none ∧ out.res = some res ∧
    res.core.schemeId = 3 ∧ res.core.lineage = some l ∧ l.minSdk = 2147483647 := by
  obtain ⟨out, h1, h2⟩ := Toy.of_check (x := Toy.run Toy.psLineagePss 24 35) (P := fun o =>
    decide (Toy.summary o = (some (3, [[Toy.certOf Toy.k2], [Toy.certOf Toy.k1]], []), none)) &&
    decide (o.res.map (fun r => r.core.lineage.map (fun l => l.minSdk)) = some (some 2147483647))) (by decide +kernel)
  simp only [Bool.and_eq_true, decide_eq_true_eq] at h2
  obtain ⟨hs, h3⟩ := h2
  obtain ⟨res, r1, r2, r3, r4⟩ := Toy.sum_res hs
  rw [r1] at h3
  simp only [Option.map_some, Option.some.injEq] at h3
  cases hl : res.core.lineage with
  | none => rw [hl] at h3; cases h3
  | some l =>
    rw [hl] at h3
    exact ⟨out, res, l, h1, Toy.sum_err hs, r1, r2, hl, Option.some.inj h3⟩

/-- The hypotheses of `C53_lineage_min_sdk_partial` are met; without RSA-PSS the reported version is Android 9. -/
example : ∃ out res l, Toy.run Toy.psLineage 24 35 = .ok out ∧ out.res = some res ∧ res.core.lineage = some l ∧
    l.minSdk = if ∃ n ∈ l.nodes, n.algo = 0x0101 then 2147483647 else 28 := by
  obtain ⟨out, res, l, h, he, hr, hs, hc, hlin, hn⟩ := Toy.runLineage
  exact ⟨out, res, l, h, hr, hlin, C53_lineage_min_sdk_partial Toy.layoutLineage h he hr (.inl hs) hlin⟩

end Apk
