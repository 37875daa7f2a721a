import Verif.Proofs.ChainHost
/-! # Certificate chains: without limits on their length, chains that exist are found -/
namespace Apk
open Spec

/-- A step from a certificate to an intermediate authority, whatever the path. -/
structure Edge (env : ChainEnv) (opts : VerifyOptions) (li : List CertFull) (x n : CertFull) : Prop where
  find : Findable li x n
  signed : SignedBy env x n
  usable : Usable env opts n
  basic : n.ext.basicConstraintsValid = true
  ca : n.ext.isCA = true

/-- There is no root above the certificate. -/
def NoRoot (env : ChainEnv) (opts : VerifyOptions) (lr : List CertFull) (x : CertFull) : Prop :=
  ∀ r, Findable lr x r → SignedBy env x r → Usable env opts r → False

/-- The certificate has been explored, without result. -/
def Black (inters : CertPool) (cache : ChainCache) (n : CertFull) : Prop :=
  ∃ j, inters.certs[j]? = some n ∧ mget cache j = some []

/-- Every explored certificate has no root above it, and the intermediate authorities above it have been explored or are on the path. -/
structure Explored (env : ChainEnv) (opts : VerifyOptions) (inters : CertPool) (li lr : List CertFull) (cache : ChainCache) (cur : List CertFull) : Prop where
  empty : ∀ i l, mget cache i = some l → l = []
  closed : ∀ x, Black inters cache x → NoRoot env opts lr x ∧
    ∀ n, Edge env opts li x n → Black inters cache n ∨ ∃ y ∈ cur, y.base.raw = n.base.raw

section
variable {env : ChainEnv} {opts : VerifyOptions} {roots inters : CertPool} {lr li : List CertFull}

theorem interLoop_acc {cur : List CertFull} {rec : ChainCache → CertFull → List CertFull → Option (List (List CertFull) × ChainCache)} :
    ∀ (is : List Nat) (cache : ChainCache) (acc chains : List (List CertFull)) (cache' : ChainCache),
      interLoop env opts inters cur rec is cache acc = some (chains, cache') → ∀ ch ∈ acc, ch ∈ chains := by
  intro is
  induction is with
  | nil =>
    intro cache acc chains cache' h ch hch
    rw [interLoop] at h
    simp only [Option.some.injEq, Prod.mk.injEq] at h
    obtain ⟨rfl, rfl⟩ := h
    exact hch
  | cons i is ih =>
    intro cache acc chains cache' h ch hch
    rw [interLoop] at h
    cases hm : inters.certs[i]? with
    | none => rw [hm] at h; exact ih _ _ _ _ h ch hch
    | some m =>
      rw [hm] at h
      simp only at h
      split at h
      · exact ih _ _ _ _ h ch hch
      split at h
      · exact ih _ _ _ _ h ch hch
      cases hg : mget cache i with
      | some l => rw [hg] at h; exact ih _ _ _ _ h ch (List.mem_append_left _ hch)
      | none =>
        rw [hg] at h
        simp only at h
        cases hb : rec cache m (cur ++ [m]) with
        | none => rw [hb] at h; cases h
        | some r => obtain ⟨l, c2⟩ := r; rw [hb] at h; exact ih _ _ _ _ h ch (List.mem_append_left _ hch)

theorem path_sub {leaf : CertFull} {p : List CertFull} (h : PathUp env opts li leaf p) : ∀ x ∈ p, x = leaf ∨ x ∈ li := by
  induction h with
  | leaf => intro x hx; exact .inl (List.mem_singleton.1 hx)
  | up _ he _ _ ih =>
    intro x hx
    rcases List.mem_append.1 hx with hx | hx
    · exact ih x hx
    · obtain rfl := List.mem_singleton.1 hx
      obtain ⟨⟨_, _, hf, _⟩, _⟩ := he
      exact .inr hf.1

theorem path_leaf {leaf : CertFull} {p : List CertFull} (h : PathUp env opts li leaf p) : leaf ∈ p := by
  induction h with
  | leaf => exact List.mem_singleton.2 rfl
  | up _ _ _ _ ih => exact List.mem_append_left _ ih

theorem rootChains_none (hr : PoolOk roots lr) (hdr : ∀ x ∈ lr, ∀ y ∈ lr, x.base.raw = y.base.raw → x = y)
    (hlim : ∀ r ∈ lr, r.ext.basicConstraintsValid = true → r.ext.maxPathLen < 0) {c : CertFull} {cur : List CertFull} (hl : cur.getLast? = some c)
    (hdis : ∀ x ∈ cur, ∀ r ∈ lr, x.base.raw ≠ r.base.raw) (h : rootChains env opts roots cur c = []) : NoRoot env opts lr c := by
  intro r h1 h2 h3
  have he : Extends env opts lr cur r := ⟨⟨c, hl, h1, h2⟩, fun x hx => hdis x hx r h1.1, h3, fun a b => by have := hlim r h1.1 a; omega⟩
  obtain ⟨c', i, g1, g2, g3, g4, g5⟩ := extends_inv (role := .root) hr hdr (fun h => by cases h) he
  rw [hl] at g1
  obtain rfl := Option.some.inj g1
  have : cur ++ [r] ∈ rootChains env opts roots cur c := by
    unfold rootChains
    refine List.mem_filterMap.2 ⟨i, g2, ?_⟩
    rw [g3]
    simp only
    rw [if_neg g4, if_neg (by rw [g5]; simp)]
  rw [h] at this
  cases this

theorem buildChains_explores (hr : PoolOk roots lr) (hi : PoolOk inters li) (hdr : ∀ x ∈ lr, ∀ y ∈ lr, x.base.raw = y.base.raw → x = y)
    (hdi : ∀ x ∈ li, ∀ y ∈ li, x.base.raw = y.base.raw → x = y)
    (hlr : ∀ r ∈ lr, r.ext.basicConstraintsValid = true → r.ext.maxPathLen < 0)
    (hli : ∀ m ∈ li, m.ext.basicConstraintsValid = true → m.ext.maxPathLen < 0) {leaf : CertFull}
    (hdl : ∀ r ∈ lr, leaf.base.raw ≠ r.base.raw) (hdis : ∀ x ∈ li, ∀ r ∈ lr, x.base.raw ≠ r.base.raw) :
    ∀ (fuel : Nat) (cache : ChainCache) (c : CertFull) (cur : List CertFull) (cache' : ChainCache),
      PathUp env opts li leaf cur → cur.getLast? = some c → Explored env opts inters li lr cache cur →
      buildChains env opts roots inters fuel cache c cur = some ([], cache') →
      Explored env opts inters li lr cache' cur ∧ (∀ x, Black inters cache x → Black inters cache' x) ∧ NoRoot env opts lr c ∧
        ∀ n, Edge env opts li c n → Black inters cache' n ∨ ∃ y ∈ cur, y.base.raw = n.base.raw := by
  intro fuel
  induction fuel with
  | zero => intro cache c cur cache' _ _ _ h; cases h
  | succ fuel ih =>
    intro cache c cur cache' hp hl hex h
    rw [buildChains] at h
    have hroot : rootChains env opts roots cur c = [] := by
      refine List.eq_nil_iff_forall_not_mem.2 (fun ch hch => ?_)
      have := interLoop_acc _ _ _ _ _ h ch hch
      cases this
    have hcur : ∀ x ∈ cur, ∀ r ∈ lr, x.base.raw ≠ r.base.raw := by
      intro x hx r hr
      rcases path_sub hp x hx with rfl | hx
      · exact hdl r hr
      · exact hdis x hx r hr
    have loop : ∀ (is : List Nat) (cache cache' : ChainCache), (∀ i ∈ is, i ∈ inters.parents env c) → Explored env opts inters li lr cache cur →
        interLoop env opts inters cur (buildChains env opts roots inters fuel) is cache [] = some ([], cache') →
        Explored env opts inters li lr cache' cur ∧ (∀ x, Black inters cache x → Black inters cache' x) ∧
        ∀ i ∈ is, ∀ m, inters.certs[i]? = some m → (¬ cur.any (fun x => decide (x.base.raw = m.base.raw)) = true) →
          certIsValid env opts .intermediate cur m = true → Black inters cache' m := by
      intro is
      induction is with
      | nil =>
        intro cache cache' _ h1 h3
        rw [interLoop] at h3
        simp only [Option.some.injEq, Prod.mk.injEq, true_and] at h3
        subst h3
        exact ⟨h1, fun _ h => h, fun i hi => by cases hi⟩
      | cons i is ihl =>
        intro cache cache' hmem h1 h3
        have hmem' : ∀ j ∈ is, j ∈ inters.parents env c := fun j hj => hmem j (List.mem_cons_of_mem _ hj)
        rw [interLoop] at h3
        cases hm : inters.certs[i]? with
        | none =>
          rw [hm] at h3
          obtain ⟨a, b, d⟩ := ihl _ _ hmem' h1 h3
          refine ⟨a, b, fun j hj m hjm => ?_⟩
          rcases List.mem_cons.1 hj with rfl | hj
          · rw [hm] at hjm; cases hjm
          · exact d j hj m hjm
        | some m =>
          rw [hm] at h3
          simp only at h3
          split at h3
          · rename_i hany
            obtain ⟨a, b, d⟩ := ihl _ _ hmem' h1 h3
            refine ⟨a, b, fun j hj m' hjm hn => ?_⟩
            rcases List.mem_cons.1 hj with rfl | hj
            · rw [hm] at hjm
              obtain rfl := Option.some.inj hjm
              exact absurd hany hn
            · exact d j hj m' hjm hn
          rename_i hany
          split at h3
          · rename_i hv
            obtain ⟨a, b, d⟩ := ihl _ _ hmem' h1 h3
            refine ⟨a, b, fun j hj m' hjm hn hv' => ?_⟩
            rcases List.mem_cons.1 hj with rfl | hj
            · rw [hm] at hjm
              obtain rfl := Option.some.inj hjm
              rw [hv'] at hv; cases hv
            · exact d j hj m' hjm hn hv'
          rename_i hv
          have hv : certIsValid env opts .intermediate cur m = true := by simpa using hv
          cases hg : mget cache i with
          | some l =>
            rw [hg] at h3
            obtain rfl := h1.empty i l hg
            obtain ⟨a, b, d⟩ := ihl _ _ hmem' h1 h3
            refine ⟨a, b, fun j hj m' hjm hn hv' => ?_⟩
            rcases List.mem_cons.1 hj with rfl | hj
            · exact b m' ⟨j, hjm, hg⟩
            · exact d j hj m' hjm hn hv'
          | none =>
            rw [hg] at h3
            simp only at h3
            cases hb' : buildChains env opts roots inters fuel cache m (cur ++ [m]) with
            | none => rw [hb'] at h3; cases h3
            | some r =>
              obtain ⟨l, cache2⟩ := r
              rw [hb'] at h3
              simp only at h3
              have hl0 : l = [] := by
                refine List.eq_nil_iff_forall_not_mem.2 (fun ch hch => ?_)
                have := interLoop_acc _ _ _ _ _ h3 ch (List.mem_append_right _ hch)
                cases this
              subst hl0
              have hext := extends_of hi hdi hl (hmem i (List.mem_cons_self ..)) hm hany hv
              obtain ⟨hb, hca⟩ := (isValid_iff.1 hv).2.2.1 rfl
              have hex' : Explored env opts inters li lr cache (cur ++ [m]) := by
                refine ⟨h1.empty, fun x hx => ⟨(h1.closed x hx).1, fun n hn => ?_⟩⟩
                rcases (h1.closed x hx).2 n hn with h | ⟨y, hy, h⟩
                · exact .inl h
                · exact .inr ⟨y, List.mem_append_left _ hy, h⟩
              obtain ⟨g1, g2, g3, g4⟩ := ih cache m (cur ++ [m]) cache2 (.up hp hext hb hca) (by simp) hex' hb'
              have mono : ∀ x, Black inters cache2 x → Black inters ((i, []) :: cache2) x := by
                rintro x ⟨j, hj1, hj2⟩
                refine ⟨j, hj1, ?_⟩
                rw [mget_cons_if]
                split
                · rfl
                · exact hj2
              have mblack : Black inters ((i, []) :: cache2) m := ⟨i, hm, by rw [mget_cons_if, if_pos rfl]⟩
              have step : ∀ n, n ∈ li → (Black inters cache2 n ∨ ∃ y ∈ cur ++ [m], y.base.raw = n.base.raw) →
                  Black inters ((i, []) :: cache2) n ∨ ∃ y ∈ cur, y.base.raw = n.base.raw := by
                rintro n hn (h | ⟨y, hy, he⟩)
                · exact .inl (mono n h)
                · rcases List.mem_append.1 hy with hy | hy
                  · exact .inr ⟨y, hy, he⟩
                  · obtain rfl := List.mem_singleton.1 hy
                    have : y = n := hdi y (hi.sub y (List.mem_of_getElem? hm)) n hn he
                    subst this
                    exact .inl mblack
              have hex2 : Explored env opts inters li lr ((i, []) :: cache2) cur := by
                refine ⟨fun j l hj => ?_, fun x hx => ?_⟩
                · rw [mget_cons_if] at hj
                  split at hj
                  · exact (Option.some.inj hj).symm
                  · exact g1.empty j l hj
                · have hx' : Black inters cache2 x ∨ x = m := by
                    obtain ⟨j, hj1, hj2⟩ := hx
                    rw [mget_cons_if] at hj2
                    by_cases hij : i = j
                    · subst hij
                      rw [hm] at hj1
                      exact .inr (Option.some.inj hj1).symm
                    · rw [if_neg hij] at hj2
                      exact .inl ⟨j, hj1, hj2⟩
                  rcases hx' with hx' | rfl
                  · exact ⟨(g1.closed x hx').1, fun n hn => step n hn.find.1 ((g1.closed x hx').2 n hn)⟩
                  · exact ⟨g3, fun n hn => step n hn.find.1 (g4 n hn)⟩
              obtain ⟨a, b, d⟩ := ihl _ _ hmem' hex2 h3
              refine ⟨a, fun x hx => b x (mono x (g2 x hx)), fun j hj m' hjm hn hv' => ?_⟩
              rcases List.mem_cons.1 hj with rfl | hj
              · rw [hm] at hjm
                obtain rfl := Option.some.inj hjm
                exact b _ mblack
              · exact d j hj m' hjm hn hv'
    rw [hroot] at h
    obtain ⟨a, b, d⟩ := loop _ _ _ (fun _ h => h) hex h
    refine ⟨a, b, rootChains_none hr hdr hlr hl hcur hroot, fun n hn => ?_⟩
    by_cases hy : ∃ y ∈ cur, y.base.raw = n.base.raw
    · exact .inr hy
    · left
      have he : Extends env opts li cur n := ⟨⟨c, hl, hn.find, hn.signed⟩, fun x hx hxe => hy ⟨x, hx, hxe⟩, hn.usable,
        fun a b => by have := hli n hn.find.1 a; omega⟩
      obtain ⟨c', i, g1, g2, g3, g4, g5⟩ := extends_inv (role := .intermediate) hi hdi (fun _ => ⟨hn.basic, hn.ca⟩) he
      rw [hl] at g1
      obtain rfl := Option.some.inj g1
      exact d i g2 n g3 g4 g5

/-- With an empty result, there is no chain. -/
theorem no_chain (hr : PoolOk roots lr) (hi : PoolOk inters li) (hdr : ∀ x ∈ lr, ∀ y ∈ lr, x.base.raw = y.base.raw → x = y)
    (hdi : ∀ x ∈ li, ∀ y ∈ li, x.base.raw = y.base.raw → x = y)
    (hlr : ∀ r ∈ lr, r.ext.basicConstraintsValid = true → r.ext.maxPathLen < 0)
    (hli : ∀ m ∈ li, m.ext.basicConstraintsValid = true → m.ext.maxPathLen < 0) {leaf : CertFull}
    (hdl : ∀ r ∈ lr, leaf.base.raw ≠ r.base.raw) (hdis : ∀ x ∈ li, ∀ r ∈ lr, x.base.raw ≠ r.base.raw) {fuel : Nat} {cache' : ChainCache}
    (h : buildChains env opts roots inters fuel [] leaf [leaf] = some ([], cache')) (ch : List CertFull) : ¬ ChainTo env opts li lr leaf ch := by
  have hnil : ∀ (x : CertFull), ¬ Black inters [] x := by
    rintro x ⟨j, _, hj⟩
    cases hj
  obtain ⟨g1, _, g3, g4⟩ := buildChains_explores hr hi hdr hdi hlr hli hdl hdis fuel [] leaf [leaf] cache' .leaf rfl
    ⟨(fun i l h => by cases h), fun x hx => absurd hx (hnil x)⟩ h
  rintro ⟨p, r, hp, ⟨⟨x, hx1, hx2, hx3⟩, _, hu, _⟩, _⟩
  have key : ∀ p, PathUp env opts li leaf p → ∀ x, p.getLast? = some x → x = leaf ∨ Black inters cache' x := by
    intro p hp
    induction hp with
    | leaf =>
      intro x hx
      exact .inl (Option.some.inj hx).symm
    | @up p m hp he hb hca ih =>
      intro x hx
      rw [List.getLast?_concat] at hx
      obtain rfl := Option.some.inj hx
      obtain ⟨⟨y, hy1, hy2, hy3⟩, hraw, hus, _⟩ := he
      have hedge : Edge env opts li y m := ⟨hy2, hy3, hus, hb, hca⟩
      have : Black inters cache' m ∨ ∃ z ∈ [leaf], z.base.raw = m.base.raw := by
        rcases ih y hy1 with rfl | hbk
        · exact g4 m hedge
        · exact (g1.closed y hbk).2 m hedge
      rcases this with h | ⟨z, hz, hze⟩
      · exact .inr h
      · obtain rfl := List.mem_singleton.1 hz
        exact absurd hze (hraw z (path_leaf hp))
  rcases key p hp x hx1 with rfl | hbk
  · exact g3 r hx2 hx3 hu
  · exact (g1.closed x hbk).1 r hx2 hx3 hu

end
end Apk
