import Verif.Proofs.Chain
/-! # Certificate chains: the chains found are chains -/
namespace Apk
open Spec

/-! ## Validity -/

theorem within_iff (env : ChainEnv) (domain constraint : Bytes) : matchNameConstraint env domain constraint = true ↔ Within env domain constraint := by
  unfold matchNameConstraint Within
  by_cases h0 : constraint.length = 0
  · rw [if_pos h0]
    exact ⟨fun _ => .inl (List.length_eq_zero_iff.1 h0), fun _ => rfl⟩
  rw [if_neg h0]
  have hne : constraint ≠ [] := fun h => h0 (by rw [h]; rfl)
  by_cases hl : domain.length < constraint.length
  · rw [if_pos hl]
    constructor
    · intro h; cases h
    · rintro (h | ⟨f, b, rfl, h2, _⟩)
      · exact absurd h hne
      · rw [List.length_append] at hl; omega
  rw [if_neg hl]
  simp only
  have hlast : ∀ f b : Bytes, f ≠ [] → (f ++ b).getD (f.length - 1) 0 = f.getLast?.getD 0 := by
    intro f b hf
    have : f.length ≠ 0 := fun h => hf (List.length_eq_zero_iff.1 h)
    rw [List.getD_eq_getElem?_getD, List.getElem?_append_left (by omega), List.getLast?_eq_getElem?]
  have hhead : constraint.getD 0 0 = 46 ↔ constraint.head? = some 46 := by
    cases constraint with
    | nil => exact absurd rfl hne
    | cons x l => simp
  have xorb : ∀ f : Bytes, f ≠ [] → (((decide (f.getLast?.getD 0 = 46)) != (decide (constraint.getD 0 0 = 46))) = true ↔
      (f.getLast? = some 46 ↔ constraint.head? ≠ some 46)) := by
    intro f hf
    have e : f.getLast?.getD 0 = 46 ↔ f.getLast? = some 46 := by
      cases h : f.getLast? with
      | none => exact absurd (List.getLast?_eq_none_iff.1 h) hf
      | some x => simp
    have g : ∀ P Q : Prop, [Decidable P] → [Decidable Q] → ((decide P != decide Q) = true ↔ (P ↔ ¬ Q)) := by
      intro P Q _ _
      by_cases a : P <;> by_cases b : Q <;> simp [a, b]
    rw [g, e, hhead]
  constructor
  · intro h
    right
    refine ⟨domain.take (domain.length - constraint.length), domain.drop (domain.length - constraint.length),
      (List.take_append_drop _ _).symm, by rw [List.length_drop]; omega, ?_⟩
    split at h
    · cases h
    rename_i hf
    refine ⟨by simpa using hf, ?_⟩
    split at h
    · rename_i hz
      left; rw [hz]; rfl
    · rename_i hz
      right
      have hlen : (domain.take (domain.length - constraint.length)).length = domain.length - constraint.length := by
        rw [List.length_take]; omega
      have hn : domain.take (domain.length - constraint.length) ≠ [] := fun h => by rw [h] at hlen; exact hz hlen.symm
      refine (xorb _ hn).1 ?_
      rw [← hlast _ (domain.drop (domain.length - constraint.length)) hn, List.take_append_drop, hlen]
      exact h
  · rintro (h | ⟨f, b, rfl, h2, h3, h4⟩)
    · exact absurd h hne
    · have e : (f ++ b).length - constraint.length = f.length := by rw [List.length_append]; omega
      rw [e, List.drop_left' rfl, if_neg (by simp [h3])]
      split
      · rfl
      · rename_i hz
        have hn : f ≠ [] := fun h => hz (by rw [h]; rfl)
        rw [hlast f b hn]
        refine (xorb f hn).2 ?_
        rcases h4 with h4 | h4
        · exact absurd h4 hn
        · exact h4

theorem asked_now {env : ChainEnv} {opts : VerifyOptions} {t : Int} (h : TimeAsked env opts t) : t = opts.now env := by
  rcases h with h | ⟨h, rfl⟩ <;> unfold VerifyOptions.now <;> rw [h] <;> rfl

theorem now_asked (env : ChainEnv) (opts : VerifyOptions) : TimeAsked env opts (opts.now env) := by
  unfold TimeAsked VerifyOptions.now
  cases h : opts.time with
  | none => exact .inr ⟨rfl, rfl⟩
  | some t => exact .inl rfl

theorem isValid_iff {env : ChainEnv} {opts : VerifyOptions} {role : CertRole} {cur : List CertFull} {c : CertFull} :
    certIsValid env opts role cur c = true ↔ (∀ x, cur.getLast? = some x → x.rawIssuer = c.rawSubject) ∧ Usable env opts c ∧
      (role = .intermediate → c.ext.basicConstraintsValid = true ∧ c.ext.isCA = true) ∧
      (c.ext.basicConstraintsValid = true → 0 ≤ c.ext.maxPathLen → (cur.length : Int) - 1 ≤ c.ext.maxPathLen) := by
  unfold certIsValid
  have hname : (wrongIssuer cur c = true) ↔
      ¬ (∀ x, cur.getLast? = some x → x.rawIssuer = c.rawSubject) := by
    unfold wrongIssuer
    cases cur.getLast? with
    | none => simp
    | some x => simp
  have hperm : ((decide (c.ext.permitted.length > 0) && !c.ext.permitted.any (matchNameConstraint env opts.dnsName)) = true) ↔
      ¬ (c.ext.permitted = [] ∨ ∃ k ∈ c.ext.permitted, Within env opts.dnsName k) := by
    rw [Bool.and_eq_true, decide_eq_true_eq, not_or, Bool.not_eq_true', ← Bool.not_eq_true, List.any_eq_true]
    simp only [within_iff]
    constructor
    · rintro ⟨h1, h2⟩; exact ⟨fun h => by rw [h] at h1; exact Nat.lt_irrefl _ h1, h2⟩
    · rintro ⟨h1, h2⟩; exact ⟨Nat.pos_of_ne_zero (fun h => h1 (List.length_eq_zero_iff.1 h)), h2⟩
  have hexcl : (c.ext.excluded.any (matchNameConstraint env opts.dnsName) = true) ↔ ¬ ∀ k ∈ c.ext.excluded, ¬ Within env opts.dnsName k := by
    rw [List.any_eq_true]
    simp only [within_iff]
    constructor
    · rintro ⟨k, h1, h2⟩ h; exact h k h1 h2
    · intro h
      refine Classical.byContradiction (fun hx => h (fun k h1 h2 => hx ⟨k, h1, h2⟩))
  constructor
  · intro h
    have h1 : ¬ (wrongIssuer cur c = true) :=
      fun hx => by rw [if_pos hx] at h; cases h
    rw [if_neg h1] at h
    have h2 : ¬ (opts.now env < c.base.notBefore ∨ opts.now env > c.base.notAfter) := fun hx => by rw [if_pos hx] at h; cases h
    rw [if_neg h2] at h
    have h3 : ¬ ((decide (c.ext.permitted.length > 0) && !c.ext.permitted.any (matchNameConstraint env opts.dnsName)) = true) :=
      fun hx => by rw [if_pos hx] at h; cases h
    rw [if_neg h3] at h
    have h4 : ¬ (c.ext.excluded.any (matchNameConstraint env opts.dnsName) = true) := fun hx => by rw [if_pos hx] at h; cases h
    rw [if_neg h4] at h
    have h5 : ¬ (role = .intermediate ∧ (c.ext.basicConstraintsValid = false ∨ c.ext.isCA = false)) := fun hx => by rw [if_pos hx] at h; cases h
    rw [if_neg h5] at h
    have h6 : ¬ (c.ext.basicConstraintsValid = true ∧ c.ext.maxPathLen ≥ 0 ∧ (cur.length : Int) - 1 > c.ext.maxPathLen) :=
      fun hx => by rw [if_pos hx] at h; cases h
    rw [hname, Classical.not_not] at h1
    rw [hperm, Classical.not_not] at h3
    rw [hexcl, Classical.not_not] at h4
    refine ⟨h1, ⟨fun t ht => by rw [asked_now ht]; omega, h3, h4⟩, fun hr => ?_, fun a b => ?_⟩
    · subst hr
      cases hb : c.ext.basicConstraintsValid with
      | false => exact absurd ⟨rfl, .inl hb⟩ h5
      | true => cases hi : c.ext.isCA with
        | false => exact absurd ⟨rfl, .inr hi⟩ h5
        | true => exact ⟨rfl, rfl⟩
    · exact Int.not_lt.1 (fun hlt => h6 ⟨a, b, hlt⟩)
  · rintro ⟨h1, ⟨h2, h3, h4⟩, h5, h6⟩
    have h2 := h2 _ (now_asked env opts)
    rw [if_neg, if_neg, if_neg, if_neg, if_neg, if_neg]
    · rintro ⟨a, b, c⟩; have := h6 a b; omega
    · rintro ⟨a, b⟩
      obtain ⟨x, y⟩ := h5 a
      rcases b with b | b
      · rw [x] at b; cases b
      · rw [y] at b; cases b
    · rw [hexcl, Classical.not_not]; exact h4
    · rw [hperm, Classical.not_not]; exact h3
    · omega
    · rw [hname, Classical.not_not]; exact h1

/-! ## Chains -/

/-- Certificates with the same bytes are the same: they come from the parser. -/
theorem certs_eq {s : CertPool} {l : List CertFull} (h : PoolOk s l) (hd : ∀ x ∈ l, ∀ y ∈ l, x.base.raw = y.base.raw → x = y) (x : CertFull) :
    x ∈ s.certs ↔ x ∈ l := by
  constructor
  · exact h.sub x
  · intro hx
    obtain ⟨y, h1, h2, _⟩ := h.cover x hx
    rw [← hd y (h.sub y h1) x hx h2]
    exact h1

theorem mem_parents {env : ChainEnv} {s : CertPool} {l : List CertFull} (h : PoolOk s l)
    (hd : ∀ x ∈ l, ∀ y ∈ l, x.base.raw = y.base.raw → x = y) {c p : CertFull} (hn : c.rawIssuer = p.rawSubject) :
    (∃ i ∈ s.parents env c, s.certs[i]? = some p) ↔ Findable l c p ∧ SignedBy env c p := by
  have hex : (∃ x ∈ s.certs, x.ext.subjectKeyId = c.ext.authorityKeyId) ↔ ∃ x ∈ l, x.ext.subjectKeyId = c.ext.authorityKeyId := by
    constructor
    · rintro ⟨x, h1, h2⟩; exact ⟨x, (certs_eq h hd x).1 h1, h2⟩
    · rintro ⟨x, h1, h2⟩; exact ⟨x, (certs_eq h hd x).2 h1, h2⟩
  constructor
  · rintro ⟨i, hi, hp⟩
    obtain ⟨p', h1, h2, h3⟩ := (parents_iff h c i).1 hi
    rw [hp] at h1
    obtain rfl := Option.some.inj h1
    refine ⟨⟨(certs_eq h hd p).1 (List.mem_of_getElem? hp), hn, fun ha hb => ?_⟩, h2⟩
    rcases h3 with ⟨_, _, h3⟩ | ⟨h3, _⟩
    · exact h3
    · exact absurd ⟨ha, hex.2 hb⟩ h3
  · rintro ⟨⟨h1, h2, h3⟩, h4⟩
    obtain ⟨i, hi⟩ := List.getElem?_of_mem ((certs_eq h hd p).2 h1)
    refine ⟨i, (parents_iff h c i).2 ⟨p, hi, h4, ?_⟩, hi⟩
    by_cases hc : c.ext.authorityKeyId ≠ [] ∧ ∃ x ∈ s.certs, x.ext.subjectKeyId = c.ext.authorityKeyId
    · exact .inl ⟨hc.1, hc.2, h3 hc.1 (hex.1 hc.2)⟩
    · exact .inr ⟨hc, h2.symm⟩

/-- A step of the search is an extension of the path. -/
theorem extends_of {env : ChainEnv} {opts : VerifyOptions} {s : CertPool} {l : List CertFull} (h : PoolOk s l)
    (hd : ∀ x ∈ l, ∀ y ∈ l, x.base.raw = y.base.raw → x = y) {role : CertRole} {cur : List CertFull} {c m : CertFull} {i : Nat}
    (hl : cur.getLast? = some c) (hi : i ∈ s.parents env c) (hm : s.certs[i]? = some m)
    (hany : ¬ cur.any (fun x => decide (x.base.raw = m.base.raw)) = true) (hv : certIsValid env opts role cur m = true) : Extends env opts l cur m := by
  obtain ⟨h1, h2, _, h4⟩ := isValid_iff.1 hv
  have hn := h1 c hl
  obtain ⟨hf, hs⟩ := (mem_parents (env := env) h hd hn).1 ⟨i, hi, hm⟩
  refine ⟨⟨c, hl, hf, hs⟩, fun x hx he => hany ?_, h2, h4⟩
  rw [List.any_eq_true]
  exact ⟨x, hx, by simpa using he⟩

theorem extends_inv {env : ChainEnv} {opts : VerifyOptions} {s : CertPool} {l : List CertFull} (h : PoolOk s l)
    (hd : ∀ x ∈ l, ∀ y ∈ l, x.base.raw = y.base.raw → x = y) {role : CertRole} {cur : List CertFull} {m : CertFull}
    (hr : role = .intermediate → m.ext.basicConstraintsValid = true ∧ m.ext.isCA = true)
    (he : Extends env opts l cur m) : ∃ c i, cur.getLast? = some c ∧ i ∈ s.parents env c ∧ s.certs[i]? = some m ∧
      (¬ cur.any (fun x => decide (x.base.raw = m.base.raw)) = true) ∧ certIsValid env opts role cur m = true := by
  obtain ⟨⟨c, h1, h2, h3⟩, h4, h5, h6⟩ := he
  obtain ⟨i, hi, hm⟩ := (mem_parents (env := env) h hd h2.2.1).2 ⟨h2, h3⟩
  refine ⟨c, i, h1, hi, hm, ?_, isValid_iff.2 ⟨fun x hx => ?_, h5, hr, h6⟩⟩
  · rw [List.any_eq_true]
    rintro ⟨x, hx, hxe⟩
    exact h4 x hx (by simpa using hxe)
  · rw [h1] at hx
    obtain rfl := Option.some.inj hx
    exact h2.2.1

section
variable {env : ChainEnv} {opts : VerifyOptions} {roots inters : CertPool} {lr li : List CertFull}

theorem rootChains_sound (hr : PoolOk roots lr) (hdr : ∀ x ∈ lr, ∀ y ∈ lr, x.base.raw = y.base.raw → x = y)
    {leaf c : CertFull} {cur : List CertFull} (hp : PathUp env opts li leaf cur) (hl : cur.getLast? = some c) :
    ∀ ch ∈ rootChains env opts roots cur c, ChainTo env opts li lr leaf ch := by
  intro ch hch
  unfold rootChains at hch
  obtain ⟨i, hi, h⟩ := List.mem_filterMap.1 hch
  cases hc : roots.certs[i]? with
  | none => rw [hc] at h; cases h
  | some r =>
    rw [hc] at h
    simp only at h
    split at h
    · cases h
    rename_i hany
    split at h
    · cases h
    rename_i hv
    obtain rfl := Option.some.inj h
    exact ⟨cur, r, hp, extends_of hr hdr hl hi hc hany (by simpa using hv), rfl⟩

theorem mget_cons_if {β : Type} (i j : Nat) (b : β) (l : List (Nat × β)) : mget ((i, b) :: l) j = if i = j then some b else mget l j := by
  unfold mget
  rw [List.find?_cons]
  by_cases h : i = j
  · simp [h]
  · simp [h]

theorem buildChains_sound (hr : PoolOk roots lr) (hi : PoolOk inters li) (hdr : ∀ x ∈ lr, ∀ y ∈ lr, x.base.raw = y.base.raw → x = y)
    (hdi : ∀ x ∈ li, ∀ y ∈ li, x.base.raw = y.base.raw → x = y) {leaf : CertFull} :
    ∀ (fuel : Nat) (cache : ChainCache) (c : CertFull) (cur : List CertFull) (chains : List (List CertFull)) (cache' : ChainCache),
      PathUp env opts li leaf cur → cur.getLast? = some c → (∀ i l, mget cache i = some l → ∀ ch ∈ l, ChainTo env opts li lr leaf ch) →
      buildChains env opts roots inters fuel cache c cur = some (chains, cache') →
      (∀ ch ∈ chains, ChainTo env opts li lr leaf ch) ∧ (∀ i l, mget cache' i = some l → ∀ ch ∈ l, ChainTo env opts li lr leaf ch) := by
  intro fuel
  induction fuel with
  | zero => intro cache c cur chains cache' _ _ _ h; cases h
  | succ fuel ih =>
    intro cache c cur chains cache' hp hl hcache h
    rw [buildChains] at h
    have loop : ∀ (is : List Nat) (cache : ChainCache) (acc chains : List (List CertFull)) (cache' : ChainCache),
        (∀ i ∈ is, i ∈ inters.parents env c) → (∀ i l, mget cache i = some l → ∀ ch ∈ l, ChainTo env opts li lr leaf ch) →
        (∀ ch ∈ acc, ChainTo env opts li lr leaf ch) →
        interLoop env opts inters cur (buildChains env opts roots inters fuel) is cache acc = some (chains, cache') →
        (∀ ch ∈ chains, ChainTo env opts li lr leaf ch) ∧ (∀ i l, mget cache' i = some l → ∀ ch ∈ l, ChainTo env opts li lr leaf ch) := by
      intro is
      induction is with
      | nil =>
        intro cache acc chains cache' _ h1 h2 h3
        rw [interLoop] at h3
        simp only [Option.some.injEq, Prod.mk.injEq] at h3
        obtain ⟨rfl, rfl⟩ := h3
        exact ⟨h2, h1⟩
      | cons i is ihl =>
        intro cache acc chains cache' hmem h1 h2 h3
        have hmem' : ∀ j ∈ is, j ∈ inters.parents env c := fun j hj => hmem j (List.mem_cons_of_mem _ hj)
        rw [interLoop] at h3
        cases hm : inters.certs[i]? with
        | none => rw [hm] at h3; exact ihl _ _ _ _ hmem' h1 h2 h3
        | some m =>
          rw [hm] at h3
          simp only at h3
          split at h3
          · exact ihl _ _ _ _ hmem' h1 h2 h3
          rename_i hany
          split at h3
          · exact ihl _ _ _ _ hmem' h1 h2 h3
          rename_i hv
          have hv : certIsValid env opts .intermediate cur m = true := by simpa using hv
          have hext := extends_of hi hdi hl (hmem i (List.mem_cons_self ..)) hm hany hv
          obtain ⟨hb, hca⟩ := (isValid_iff.1 hv).2.2.1 rfl
          cases hg : mget cache i with
          | some l =>
            rw [hg] at h3
            refine ihl _ _ _ _ hmem' h1 (fun ch hch => ?_) h3
            rcases List.mem_append.1 hch with hch | hch
            · exact h2 ch hch
            · exact h1 i l hg ch hch
          | none =>
            rw [hg] at h3
            simp only at h3
            cases hb' : buildChains env opts roots inters fuel cache m (cur ++ [m]) with
            | none => rw [hb'] at h3; cases h3
            | some r =>
              obtain ⟨l, cache2⟩ := r
              rw [hb'] at h3
              obtain ⟨g1, g2⟩ := ih cache m (cur ++ [m]) l cache2 (.up hp hext hb hca) (by simp) h1 hb'
              refine ihl _ _ _ _ hmem' (fun j l' hj => ?_) (fun ch hch => ?_) h3
              · rw [mget_cons_if] at hj
                split at hj
                · obtain rfl := Option.some.inj hj; exact g1
                · exact g2 j l' hj
              · rcases List.mem_append.1 hch with hch | hch
                · exact h2 ch hch
                · exact g1 ch hch
    exact loop _ _ _ _ _ (fun _ h => h) hcache (rootChains_sound hr hdr hp hl) h

end

/-! ## Termination -/

theorem count_drop {l : List CertFull} {cur : List CertFull} {m : CertFull} (hm : m ∈ l) (hc : ¬ cur.any (fun x => decide (x.base.raw = m.base.raw)) = true) :
    ∀ f : CertFull → Bool, f = (fun y => !cur.any (fun x => decide (x.base.raw = y.base.raw))) →
      (l.countP (fun y => !(cur ++ [m]).any (fun x => decide (x.base.raw = y.base.raw)))) < l.countP f := by
  rintro f rfl
  induction l with
  | nil => cases hm
  | cons z l ih =>
    rw [List.countP_cons, List.countP_cons]
    have mono : l.countP (fun y => !(cur ++ [m]).any (fun x => decide (x.base.raw = y.base.raw))) ≤
        l.countP (fun y => !cur.any (fun x => decide (x.base.raw = y.base.raw))) := by
      refine List.countP_mono_left (fun y _ hy => ?_)
      simp only [List.any_append, Bool.not_or, Bool.and_eq_true] at hy
      exact hy.1
    have hz : (if (!(cur ++ [m]).any (fun x => decide (x.base.raw = z.base.raw))) = true then 1 else 0) ≤
        (if (!cur.any (fun x => decide (x.base.raw = z.base.raw))) = true then 1 else 0) := by
      by_cases h : (!(cur ++ [m]).any (fun x => decide (x.base.raw = z.base.raw))) = true
      · have h' := h
        simp only [List.any_append, Bool.not_or, Bool.and_eq_true] at h'
        rw [if_pos h, if_pos h'.1]; exact Nat.le_refl _
      · rw [if_neg h]; exact Nat.zero_le _
    rcases List.mem_cons.1 hm with rfl | hm
    · have h1 : (!cur.any (fun x => decide (x.base.raw = m.base.raw))) = true := by simpa using hc
      have h2 : ¬ (!(cur ++ [m]).any (fun x => decide (x.base.raw = m.base.raw))) = true := by simp
      rw [if_pos h1, if_neg h2]
      omega
    · have := ih hm
      omega

theorem buildChains_total {env : ChainEnv} {opts : VerifyOptions} {roots inters : CertPool} :
    ∀ (fuel : Nat) (cache : ChainCache) (c : CertFull) (cur : List CertFull),
      inters.certs.countP (fun y => !cur.any (fun x => decide (x.base.raw = y.base.raw))) < fuel →
      ∃ r, buildChains env opts roots inters fuel cache c cur = some r := by
  intro fuel
  induction fuel with
  | zero => intro _ _ _ h; omega
  | succ fuel ih =>
    intro cache c cur hf
    rw [buildChains]
    have loop : ∀ (is : List Nat) (cache : ChainCache) (acc : List (List CertFull)),
        ∃ r, interLoop env opts inters cur (buildChains env opts roots inters fuel) is cache acc = some r := by
      intro is
      induction is with
      | nil => intro cache acc; exact ⟨_, rfl⟩
      | cons i is ihl =>
        intro cache acc
        rw [interLoop]
        cases hm : inters.certs[i]? with
        | none => exact ihl _ _
        | some m =>
          simp only
          split
          · exact ihl _ _
          rename_i hany
          split
          · exact ihl _ _
          cases hg : mget cache i with
          | some l => exact ihl _ _
          | none =>
            simp only
            have := count_drop (List.mem_of_getElem? hm) hany _ rfl
            obtain ⟨⟨l, cache2⟩, hb⟩ := ih cache m (cur ++ [m]) (by omega)
            rw [hb]
            exact ihl _ _
    exact loop _ _ _

end Apk
