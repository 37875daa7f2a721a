import Verif.Spec.CertFull
import Verif.Proofs.X509Exact
/-! # The fields of a certificate -/
namespace Apk

/-! ## The names -/

theorem sanNames_inv {env : AsnEnv} : ∀ (fuel : Nat) (b : Bytes) (d m i d' m' i' : List Bytes), b.length ≤ fuel →
    sanNames env fuel b (d, m, i) = .ok (some (d', m', i')) →
    ∃ dns mail ip, d' = d ++ dns ∧ m' = m ++ mail ∧ i' = i ++ ip ∧ AltNamesAre dns mail ip b
  | 0, b, d, m, i, d', m', i', hl, h => by
    have : b = [] := List.length_eq_zero_iff.1 (by omega)
    subst this
    cases h
    exact ⟨[], [], [], by simp, by simp, by simp, .nil⟩
  | fuel + 1, b, d, m, i, d', m', i', hl, h => by
    rw [sanNames] at h
    by_cases hb : b = []
    · rw [if_pos hb] at h
      cases h
      subst hb
      exact ⟨[], [], [], by simp, by simp, by simp, .nil⟩
    · rw [if_neg hb] at h
      obtain ⟨r, hr⟩ := unmFirst_total env .rawValue b
      rw [hr] at h
      rcases r with _ | ⟨v, rest⟩
      · cases h
      · obtain ⟨he, e⟩ := unmRaw_iff.1 hr
        have hlen : rest.length ≤ fuel := by
          have hne := he.ne
          have : 0 < (RawVal.full v).length := List.length_pos_iff.2 hne
          rw [e, List.length_append] at hl
          omega
        simp only at h
        rw [e]
        generalize hv : (show RawVal from v) = w at h
        change v = w at hv
        subst hv
        generalize ht : RawVal.tag v = tag at h he
        by_cases h1 : tag = 1
        · rw [if_pos h1] at h
          subst h1
          obtain ⟨dns, mail, ip, rfl, rfl, rfl, ha⟩ := sanNames_inv fuel _ _ _ _ _ _ _ hlen h
          exact ⟨dns, _ :: mail, ip, rfl, by simp, rfl, .mail he ha⟩
        rw [if_neg h1] at h
        by_cases h2 : tag = 2
        · rw [if_pos h2] at h
          subst h2
          obtain ⟨dns, mail, ip, rfl, rfl, rfl, ha⟩ := sanNames_inv fuel _ _ _ _ _ _ _ hlen h
          exact ⟨_ :: dns, mail, ip, by simp, rfl, rfl, .dns he ha⟩
        rw [if_neg h2] at h
        by_cases h7 : tag = 7
        · rw [if_pos h7] at h
          subst h7
          by_cases hc : (RawVal.bytes v).length = 4 ∨ (RawVal.bytes v).length = 16
          · rw [if_pos hc] at h
            obtain ⟨dns, mail, ip, rfl, rfl, rfl, ha⟩ := sanNames_inv fuel _ _ _ _ _ _ _ hlen h
            exact ⟨dns, mail, _ :: ip, rfl, rfl, by simp, .ip he hc ha⟩
          · rw [if_neg hc] at h
            cases h
        rw [if_neg h7] at h
        obtain ⟨dns, mail, ip, rfl, rfl, rfl, ha⟩ := sanNames_inv fuel _ _ _ _ _ _ _ hlen h
        exact ⟨dns, mail, ip, rfl, rfl, rfl, .other h1 h2 h7 he ha⟩

/-- The number of names found. -/
def countNames : Go (Option (List Bytes × List Bytes × List Bytes)) → Go (Option Nat)
  | .error p => .error p
  | .ok none => .ok none
  | .ok (some (d, m, i)) => .ok (some (d.length + m.length + i.length))

theorem sanLoop_names {env : AsnEnv} : ∀ (fuel : Nat) (b : Bytes) (d m i : List Bytes),
    sanLoop env fuel b (d.length + m.length + i.length) = countNames (sanNames env fuel b (d, m, i))
  | 0, _, _, _, _ => rfl
  | fuel + 1, b, d, m, i => by
    rw [sanLoop, sanNames]
    by_cases hb : b = []
    · rw [if_pos hb, if_pos hb]; rfl
    · rw [if_neg hb, if_neg hb]
      rcases unmFirst env .rawValue b with p | _ | ⟨v, rest⟩
      · rfl
      · rfl
      · simp only
        generalize RawVal.tag v = tag
        generalize RawVal.bytes v = bytes
        by_cases h1 : tag = 1
        · rw [if_pos (.inl h1), if_pos h1, ← sanLoop_names]
          congr 1
          simp; omega
        by_cases h2 : tag = 2
        · rw [if_pos (.inr h2), if_neg h1, if_pos h2, ← sanLoop_names]
          congr 1
          simp; omega
        rw [if_neg (by simp [h1, h2]), if_neg h1, if_neg h2]
        by_cases h7 : tag = 7
        · rw [if_pos h7, if_pos h7]
          by_cases hc : bytes.length = 4 ∨ bytes.length = 16
          · rw [if_pos hc, if_pos hc, ← sanLoop_names]
            congr 1
            simp; omega
          · rw [if_neg hc, if_neg hc]; rfl
        · rw [if_neg h7, if_neg h7]
          exact sanLoop_names _ _ _ _ _

theorem parseSAN_names (env : AsnEnv) (value : Bytes) : parseSAN env value = countNames (sanFields env value) := by
  unfold parseSAN sanFields
  rcases unmAll env .rawValue value with p | _ | v
  · rfl
  · rfl
  · simp only
    split
    · rfl
    · exact sanLoop_names _ _ [] [] []

theorem sanFields_inv {env : AsnEnv} {value : Bytes} {x : List Bytes × List Bytes × List Bytes} (h : sanFields env value = .ok (some x)) : SanIs value x := by
  unfold sanFields at h
  obtain ⟨r, hr⟩ := unmAll_total env .rawValue value
  rw [hr] at h
  rcases r with _ | v
  · cases h
  · obtain ⟨he, e⟩ := reads_raw_iff.1 (unmAll_iff.1 hr)
    have h : (if (!RawVal.isCompound v || decide (RawVal.tag v ≠ 16) || decide (RawVal.cls v ≠ 0)) = true then .ok none
      else sanNames env (RawVal.bytes v).length (RawVal.bytes v) ([], [], [])) = .ok (some x) := h
    rw [List.append_nil] at e
    by_cases hc : (!RawVal.isCompound v || decide (RawVal.tag v ≠ 16) || decide (RawVal.cls v ≠ 0)) = true
    · rw [if_pos hc] at h; cases h
    · rw [if_neg hc] at h
      simp only [Bool.or_eq_true, Bool.not_eq_true', decide_eq_true_eq, not_or, Bool.not_eq_false, ne_eq, Classical.not_not] at hc
      obtain ⟨⟨h1, h2⟩, h3⟩ := hc
      rw [h1, h2, h3, ← e] at he
      obtain ⟨d, m, i⟩ := x
      obtain ⟨dns, mail, ip, rfl, rfl, rfl, ha⟩ := sanNames_inv _ _ _ _ _ _ _ _ (Nat.le_refl _) h
      exact ⟨_, he, ha⟩

theorem altNames_unique {d m i d' m' i' : List Bytes} {b : Bytes} (h : AltNamesAre d m i b) (h' : AltNamesAre d' m' i' b) : d = d' ∧ m = m' ∧ i = i' := by
  have key : ∀ {d m i : List Bytes} {b : Bytes}, AltNamesAre d m i b → ∀ (env : AsnEnv) (fuel : Nat) (d0 m0 i0 : List Bytes), b.length ≤ fuel →
      sanNames env fuel b (d0, m0, i0) = .ok (some (d0 ++ d, m0 ++ m, i0 ++ i)) := by
    have step : ∀ {env : AsnEnv} {cls tag : Nat} {con : Bool} {c e r : Bytes}, Elem cls tag con c e → ∀ (fuel : Nat) (d0 m0 i0 : List Bytes),
        (e ++ r).length ≤ fuel →
        ∃ f, fuel = f + 1 ∧ r.length ≤ f ∧ sanNames env fuel (e ++ r) (d0, m0, i0) = (if tag = 1 then sanNames env f r (d0, m0 ++ [c], i0)
          else if tag = 2 then sanNames env f r (d0 ++ [c], m0, i0)
          else if tag = 7 then (if c.length = 4 ∨ c.length = 16 then sanNames env f r (d0, m0, i0 ++ [c]) else .ok none)
          else sanNames env f r (d0, m0, i0)) := by
      intro env cls tag con c e r he fuel d0 m0 i0 hl
      have hne := he.ne
      rw [List.length_append] at hl
      have : 0 < e.length := List.length_pos_iff.2 hne
      cases fuel with
      | zero => omega
      | succ f =>
        refine ⟨f, rfl, by omega, ?_⟩
        rw [sanNames, if_neg (by simp [hne]), rawVal_of_elem he]
    intro d m i b h
    induction h with
    | nil => intro env fuel d0 m0 i0 _; cases fuel <;> simp [sanNames]
    | mail he _ ih =>
      intro env fuel d0 m0 i0 hl
      obtain ⟨f, rfl, hf, e⟩ := step (env := env) he fuel d0 m0 i0 hl
      rw [e, if_pos rfl, ih env f _ _ _ hf]
      simp
    | dns he _ ih =>
      intro env fuel d0 m0 i0 hl
      obtain ⟨f, rfl, hf, e⟩ := step (env := env) he fuel d0 m0 i0 hl
      rw [e, if_neg (by decide), if_pos rfl, ih env f _ _ _ hf]
      simp
    | ip he hc _ ih =>
      intro env fuel d0 m0 i0 hl
      obtain ⟨f, rfl, hf, e⟩ := step (env := env) he fuel d0 m0 i0 hl
      rw [e, if_neg (by decide), if_neg (by decide), if_pos rfl, if_pos hc, ih env f _ _ _ hf]
      simp
    | other h1 h2 h7 he _ ih =>
      intro env fuel d0 m0 i0 hl
      obtain ⟨f, rfl, hf, e⟩ := step (env := env) he fuel d0 m0 i0 hl
      rw [e, if_neg h1, if_neg h2, if_neg h7, ih env f _ _ _ hf]
  have env : AsnEnv := ⟨fun _ => true, fun _ => [], fun _ => none, fun _ => none⟩
  have := (key h env _ [] [] [] (Nat.le_refl _)).symm.trans (key h' env _ [] [] [] (Nat.le_refl _))
  simpa using this

/-! ## The parts -/

theorem bitAt_iff {b : BitStr} {i : Nat} (hb : b.bitLength ≤ 8 * b.bytes.length) : bitAt b i ≠ 0 ↔ BitSet b i := by
  unfold bitAt BitSet
  by_cases h : i ≥ b.bitLength
  · rw [if_pos h]
    simp; omega
  · rw [if_neg h]
    have hi : i / 8 < b.bytes.length := by omega
    simp only [List.getElem?_eq_getElem hi, Option.some.injEq, List.getD_eq_getElem?_getD, Option.getD_some]
    constructor
    · intro h1
      refine ⟨by omega, _, rfl, ?_⟩
      rw [Nat.testBit_eq_decide_div_mod_eq]
      simp only [decide_eq_true_eq]
      omega
    · rintro ⟨_, x, rfl, h2⟩
      rw [Nat.testBit_eq_decide_div_mod_eq] at h2
      simp only [decide_eq_true_eq] at h2
      omega

theorem usageOf_spec (b : BitStr) (hb : b.bitLength ≤ 8 * b.bytes.length) : usageOf b < 512 ∧ ∀ i, i < 9 → ((usageOf b).testBit i = true ↔ BitSet b i) := by
  have key : ∀ n, let u := (List.range n).foldl (fun usage i => if bitAt b i ≠ 0 then usage ||| 2 ^ i else usage) 0
      u < 2 ^ n ∧ ∀ i, i < n → (u.testBit i = true ↔ BitSet b i) := by
    intro n
    induction n with
    | zero => simp
    | succ n ih =>
      simp only [List.range_succ, List.foldl_append, List.foldl_cons, List.foldl_nil] at ih ⊢
      generalize List.foldl _ 0 (List.range n) = u at ih
      obtain ⟨h1, h2⟩ := ih
      have h2n : 2 ^ n < 2 ^ (n + 1) := Nat.pow_lt_pow_right (by omega) (by omega)
      by_cases h : bitAt b n ≠ 0
      · rw [if_pos h]
        refine ⟨Nat.or_lt_two_pow (by omega) h2n, fun i hi => ?_⟩
        rw [Nat.testBit_or, Nat.testBit_two_pow]
        by_cases hin : i = n
        · subst hin
          simp [(bitAt_iff hb).1 h]
        · have : n ≠ i := fun e => hin e.symm
          simp only [this, decide_false, Bool.or_false]
          exact h2 i (by omega)
      · rw [if_neg h]
        refine ⟨by omega, fun i hi => ?_⟩
        by_cases hin : i = n
        · subst hin
          rw [Nat.testBit_lt_two_pow h1]
          constructor
          · intro h; cases h
          · intro h'; exact absurd ((bitAt_iff hb).2 h') h
        · exact h2 i (by omega)
  exact key 9

theorem bits_len {env : AsnEnv} {bits : BitStr} {b rest : Bytes} (h : Reads env .bits {} bits b rest) : bits.bitLength ≤ 8 * bits.bytes.length := by
  rcases (reads_prim (t := .bits) (by simp) (by simp) (by simp)).1 h with ⟨tl, inner, _, hp⟩ | ⟨h, _⟩ | ⟨h, _⟩
  · obtain ⟨p, _, _, h3, _⟩ := (show BitContents bits inner from hp)
    omega
  · exact absurd (absent_optional h) (by simp)
  · cases h

theorem subtreeNames_eq {critical : Bool} {l : List (Bytes × Bytes × Unit)} :
    subtreeNames critical l = if subtreesOk critical l then some (subtreeDns l) else none := by
  induction l with
  | nil => rfl
  | cons s ss ih =>
    rw [subtreeNames, ih]
    unfold subtreesOk subtreeDns
    by_cases hs : s.2.1 = []
    · rw [if_pos hs]
      cases critical
      · simp [hs]
      · simp [hs]
    · rw [if_neg hs]
      simp only [List.all_cons, hs, decide_false, Bool.and_false, Bool.not_false, Bool.true_and, List.map_cons]
      rw [List.filter_cons_of_pos (by simpa using hs)]
      split <;> rename_i he
      · split at he
        · cases he
        · rename_i hc
          rw [if_neg hc]
      · split at he
        · rename_i hc
          cases he
          rw [if_pos hc]
        · cases he

theorem dpUrls_inv {env : AsnEnv} : ∀ {l : List (Bytes × (Bytes × RawVal × rdnsTy.interp × Unit) × BitStr × RawVal × Unit)} {acc urls : List Bytes},
    dpUrls env l acc = .ok (some urls) → ∃ parts, ListRel (fun p u => PointUrl p.2.1.2.1 u) l parts ∧ urls = acc ++ parts.flatten
  | [], acc, urls, h => by
    cases h
    exact ⟨[], .nil, by simp⟩
  | dp :: dps, acc, urls, h => by
    unfold dpUrls at h
    by_cases hb : dp.2.1.2.1.bytes = []
    · rw [if_pos hb] at h
      obtain ⟨parts, h1, h2⟩ := dpUrls_inv h
      exact ⟨[] :: parts, .cons (.inl ⟨hb, rfl⟩) h1, by simpa using h2⟩
    · rw [if_neg hb] at h
      obtain ⟨r, hr⟩ := unmFirst_total env .rawValue dp.2.1.2.1.bytes
      rw [hr] at h
      rcases r with _ | ⟨v, rest⟩
      · cases h
      · obtain ⟨he, e⟩ := unmRaw_iff.1 hr
        have h : dpUrls env dps (if RawVal.tag v = 6 then acc ++ [RawVal.bytes v] else acc) = .ok (some urls) := h
        obtain ⟨parts, h1, h2⟩ := dpUrls_inv h
        refine ⟨(if RawVal.tag v = 6 then [RawVal.bytes v] else []) :: parts, .cons (.inr ⟨_, _, _, _, _, rest, e, he, rfl⟩) h1, ?_⟩
        rw [h2]
        split <;> simp

/-- Errors of `dpUrls` are those of `dpsOk`. -/
theorem dpsOk_urls {env : AsnEnv} : ∀ (l : List (Bytes × (Bytes × RawVal × rdnsTy.interp × Unit) × BitStr × RawVal × Unit)) (acc : List Bytes),
    dpsOk env l = (match dpUrls env l acc with | .error p => .error p | .ok none => .ok none | .ok (some _) => .ok (some ()))
  | [], _ => rfl
  | dp :: dps, acc => by
    rw [dpsOk, dpUrls]
    by_cases hb : dp.2.1.2.1.bytes = []
    · rw [if_pos hb, if_pos hb]
      exact dpsOk_urls dps acc
    · rw [if_neg hb, if_neg hb]
      rcases unmFirst env .rawValue dp.2.1.2.1.bytes with p | _ | ⟨v, rest⟩
      · rfl
      · rfl
      · exact dpsOk_urls dps _

theorem mget_zipIdx (u : List Nat) : ∀ (l : List (List Nat)) (k : Nat), mget (l.zipIdx k) u = (l.idxOf? u).map (· + k)
  | [], _ => rfl
  | a :: l, k => by
    have ih := mget_zipIdx u l (k + 1)
    unfold mget at ih ⊢
    rw [List.zipIdx_cons, List.find?_cons, List.idxOf?_cons]
    by_cases h : a = u
    · subst h
      simp
    · have hb : (a == u) = false := by simp [h]
      simp only [h, hb, decide_false]
      rw [ih]
      cases l.idxOf? u <;> simp
      omega

theorem eku_lookup (u : List Nat) : mget extKeyUsageTable u = keyPurposes.idxOf? u := by
  have h : extKeyUsageTable = keyPurposes.zipIdx 0 := rfl
  rw [h, mget_zipIdx]
  simp

theorem addUsages_eq : ∀ (us : List (List Nat)) (s : ExtFields), addUsages s us =
    { s with extKeyUsage := s.extKeyUsage ++ us.filterMap (fun o => keyPurposes.idxOf? o),
             unknownExtKeyUsage := s.unknownExtKeyUsage ++ us.filter (fun o => o ∉ keyPurposes) }
  | [], s => by simp [addUsages]
  | u :: us, s => by
    rw [addUsages, eku_lookup]
    cases h : keyPurposes.idxOf? u with
    | some k =>
      have hm : u ∈ keyPurposes := by
        refine Classical.byContradiction (fun hn => ?_)
        rw [List.idxOf?_eq_none_iff.2 hn] at h
        cases h
      simp only
      rw [addUsages_eq us]
      simp [h, hm]
    | none =>
      have hm : u ∉ keyPurposes := List.idxOf?_eq_none_iff.1 h
      simp only
      rw [addUsages_eq us]
      simp [h, hm]

theorem addAccess_eq : ∀ (as : List (Bytes × List Nat × RawVal × Unit)) (s : ExtFields), addAccess s as =
    { s with ocspServer := s.ocspServer ++ (as.filter (fun a => a.2.1 = [1,3,6,1,5,5,7,48,1] ∧ a.2.2.1.tag = 6)).map (fun a => a.2.2.1.bytes),
             issuingUrl := s.issuingUrl ++ (as.filter (fun a => a.2.1 = [1,3,6,1,5,5,7,48,2] ∧ a.2.2.1.tag = 6)).map (fun a => a.2.2.1.bytes) }
  | [], s => by simp [addAccess]
  | a :: as, s => by
    rw [addAccess]
    by_cases ht : a.2.2.1.tag = 6
    · rw [if_neg (by simpa using ht)]
      by_cases h1 : a.2.1 = [1,3,6,1,5,5,7,48,1]
      · rw [if_pos h1, addAccess_eq as]
        simp [ht, h1]
      · rw [if_neg h1]
        by_cases h2 : a.2.1 = [1,3,6,1,5,5,7,48,2]
        · rw [if_pos h2, addAccess_eq as]
          simp [ht, h2]
        · rw [if_neg h2, addAccess_eq as]
          simp [h1, h2]
    · rw [if_pos ht, addAccess_eq as]
      simp [ht]

/-! ## One extension -/

/-- What one extension does to the fields. -/
inductive FieldStep (env : AsnEnv) (s : ExtFields) : List Nat → Bool → Bytes → ExtFields → Prop
  | usage {c : Bool} {v : Bytes} {u : Nat} : UsageIs env v u → FieldStep env s [2,5,29,15] c v { s with keyUsage := u }
  | basic {c : Bool} {v : Bytes} {ca : Bool} {len : Int} : BasicIs env v (true, ca, len, len == 0) → FieldStep env s [2,5,29,19] c v (setBasic s ca len)
  | san {c : Bool} {v : Bytes} {d m i : List Bytes} : SanIs v (d, m, i) → FieldStep env s [2,5,29,17] c v { s with dnsNames := d, emails := m, ips := i }
  | constraints {c : Bool} {v : Bytes} {p e : List Bytes} : ConstraintsAre env c v (c, p, e) →
      FieldStep env s [2,5,29,30] c v { s with permitted := p, excluded := e, permittedCritical := c }
  | points {c : Bool} {v : Bytes} {l : List Bytes} : PointsAre env v l → FieldStep env s [2,5,29,31] c v { s with crlPoints := s.crlPoints ++ l }
  | aki {c : Bool} {v : Bytes} {k : Bytes} : AuthorityKeyIs env v k → FieldStep env s [2,5,29,35] c v { s with authorityKeyId := k }
  | eku {c : Bool} {v : Bytes} {ns : List Nat} {os : List (List Nat)} : PurposesAre env v ns → OtherPurposesAre env v os →
      FieldStep env s [2,5,29,37] c v { s with extKeyUsage := s.extKeyUsage ++ ns, unknownExtKeyUsage := s.unknownExtKeyUsage ++ os }
  | ski {c : Bool} {v : Bytes} {k : Bytes} : SubjectKeyIs env v k → FieldStep env s [2,5,29,14] c v { s with subjectKeyId := k }
  | policies {c : Bool} {v : Bytes} {ps : List (List Nat)} : PoliciesAre env v ps → FieldStep env s [2,5,29,32] c v { s with policies := ps }
  | access {c : Bool} {v : Bytes} {o i : List Bytes} : AccessIs env [1,3,6,1,5,5,7,48,1] v o → AccessIs env [1,3,6,1,5,5,7,48,2] v i →
      FieldStep env s [1,3,6,1,5,5,7,1,1] c v { s with ocspServer := s.ocspServer ++ o, issuingUrl := s.issuingUrl ++ i }
  | other {id : List Nat} {c : Bool} {v : Bytes} : id ∉ [[2,5,29,15], [2,5,29,19], [2,5,29,17], [2,5,29,30], [2,5,29,31], [2,5,29,35], [2,5,29,37], [2,5,29,14],
      [2,5,29,32], [1,3,6,1,5,5,7,1,1]] → FieldStep env s id c v s

theorem withValue_inv {α : Type} {x : Go (Option α)} {f : α → ExtFields × Bool} {r : ExtFields × Bool} (h : withValue x f = .ok (some r)) :
    ∃ v, x = .ok (some v) ∧ f v = r := by
  unfold withValue at h
  rcases x with p | _ | v
  · cases h
  · cases h
  · exact ⟨v, rfl, by simpa using h⟩

theorem setConstraints_eq (s : ExtFields) (c : Bool) (p e : List (Bytes × Bytes × Unit)) : setConstraints s c p e =
    if (subtreesOk c p && subtreesOk c e) = true then .ok (some ({ s with permitted := subtreeDns p, excluded := subtreeDns e, permittedCritical := c }, false))
    else .ok none := by
  unfold setConstraints
  rw [subtreeNames_eq, subtreeNames_eq]
  cases subtreesOk c p <;> cases subtreesOk c e <;> rfl

theorem setConstraints_inv {s : ExtFields} {c : Bool} {p e : List (Bytes × Bytes × Unit)} {r : ExtFields × Bool} (h : setConstraints s c p e = .ok (some r)) :
    (subtreesOk c p && subtreesOk c e) = true ∧ r = ({ s with permitted := subtreeDns p, excluded := subtreeDns e, permittedCritical := c }, false) := by
  rw [setConstraints_eq] at h
  split at h
  · rename_i hc
    exact ⟨hc, by simpa using h.symm⟩
  · cases h

theorem step_inv {env : AsnEnv} {s s' : ExtFields} {id : List Nat} {c u : Bool} {v : Bytes} (h : extFieldsStep env s id c v = .ok (some (s', u))) :
    FieldStep env s id c v s' := by
  unfold extFieldsStep at h
  by_cases h1 : id = [2,5,29,15]
  · rw [if_pos h1] at h
    obtain ⟨x, hx, e⟩ := withValue_inv h
    cases e
    have hr := unmAll_iff.1 hx
    obtain ⟨a, b⟩ := usageOf_spec x (bits_len hr)
    rw [h1]
    exact .usage ⟨x, hr, a, b⟩
  rw [if_neg h1] at h
  by_cases h2 : id = [2,5,29,19]
  · rw [if_pos h2] at h
    obtain ⟨⟨c0, ca, len, ⟨⟩⟩, hx, e⟩ := withValue_inv h
    cases e
    rw [h2]
    exact .basic ⟨c0, ca, len, unmAll_iff.1 hx, rfl⟩
  rw [if_neg h2] at h
  by_cases h3 : id = [2,5,29,17]
  · rw [if_pos h3] at h
    obtain ⟨⟨d, m, i⟩, hx, e⟩ := withValue_inv h
    cases e
    rw [h3]
    exact .san (sanFields_inv hx)
  rw [if_neg h3] at h
  by_cases h4 : id = [2,5,29,30]
  · rw [if_pos h4] at h
    obtain ⟨r, hr⟩ := unmAll_total env nameConstraintsTy v
    rw [hr] at h
    rcases r with _ | ⟨c0, p, e, ⟨⟩⟩
    · cases h
    · have h := (setConstraints_inv h).2
      cases h
      rw [h4]
      exact .constraints ⟨c0, p, e, unmAll_iff.1 hr, rfl⟩
  rw [if_neg h4] at h
  by_cases h5 : id = [2,5,29,31]
  · rw [if_pos h5] at h
    obtain ⟨r, hr⟩ := unmAll_total env (.slice false dpTy) v
    rw [hr] at h
    rcases r with _ | dps
    · cases h
    · obtain ⟨l, hx, e⟩ := withValue_inv h
      cases e
      obtain ⟨parts, hp, rfl⟩ := dpUrls_inv hx
      rw [h5]
      exact .points ⟨dps, parts, unmAll_iff.1 hr, hp, rfl⟩
  rw [if_neg h5] at h
  by_cases h6 : id = [2,5,29,35]
  · rw [if_pos h6] at h
    obtain ⟨⟨a0, k, ⟨⟩⟩, hx, e⟩ := withValue_inv h
    cases e
    rw [h6]
    exact .aki ⟨a0, unmAll_iff.1 hx⟩
  rw [if_neg h6] at h
  by_cases h7 : id = [2,5,29,37]
  · rw [if_pos h7] at h
    obtain ⟨us, hx, e⟩ := withValue_inv h
    have e := (congrArg Prod.fst e).symm
    have e : s' = _ := e.trans (addUsages_eq us s)
    rw [e, h7]
    exact .eku ⟨us, unmAll_iff.1 hx, rfl⟩ ⟨us, unmAll_iff.1 hx, rfl⟩
  rw [if_neg h7] at h
  by_cases h8 : id = [2,5,29,14]
  · rw [if_pos h8] at h
    obtain ⟨k, hx, e⟩ := withValue_inv h
    cases e
    rw [h8]
    exact .ski (unmAll_iff.1 hx)
  rw [if_neg h8] at h
  by_cases h9 : id = [2,5,29,32]
  · rw [if_pos h9] at h
    obtain ⟨ps, hx, e⟩ := withValue_inv h
    cases e
    rw [h9]
    exact .policies ⟨ps, unmAll_iff.1 hx, rfl⟩
  rw [if_neg h9] at h
  by_cases h10 : id = [1,3,6,1,5,5,7,1,1]
  · rw [if_pos h10] at h
    obtain ⟨as, hx, e⟩ := withValue_inv h
    have e := (congrArg Prod.fst e).symm
    have e : s' = _ := e.trans (addAccess_eq as s)
    rw [e, h10]
    exact .access ⟨as, unmAll_iff.1 hx, rfl⟩ ⟨as, unmAll_iff.1 hx, rfl⟩
  rw [if_neg h10] at h
  cases h
  exact .other (by simp [h1, h2, h3, h4, h5, h6, h7, h8, h9, h10])

/-- Only success and the flag. -/
def flagOf : Go (Option (ExtFields × Bool)) → Go (Option Bool)
  | .error p => .error p
  | .ok none => .ok none
  | .ok (some (_, u)) => .ok (some u)

theorem flag_withValue {α : Type} {x : Go (Option α)} {f : α → ExtFields × Bool} (hf : ∀ v, (f v).2 = false) : flagOf (withValue x f) = handledIf x := by
  rcases x with p | _ | v
  · rfl
  · rfl
  · simp only [withValue, handledIf]
    have := hf v
    generalize f v = y at this
    obtain ⟨a, b⟩ := y
    simp only at this
    subst this
    rfl

theorem step_flag (env : AsnEnv) (s : ExtFields) (id : List Nat) (c : Bool) (v : Bytes) :
    extensionStep env id c v = flagOf (extFieldsStep env s id c v) := by
  unfold extensionStep extFieldsStep
  by_cases h1 : id = [2,5,29,15]
  · rw [if_pos h1, if_pos h1, flag_withValue (fun _ => rfl)]
  rw [if_neg h1, if_neg h1]
  by_cases h2 : id = [2,5,29,19]
  · rw [if_pos h2, if_pos h2, flag_withValue (fun _ => rfl)]
  rw [if_neg h2, if_neg h2]
  by_cases h3 : id = [2,5,29,17]
  · rw [if_pos h3, if_pos h3, parseSAN_names]
    rcases sanFields env v with p | _ | ⟨d, m, i⟩
    · rfl
    · rfl
    · simp only [countNames, withValue, flagOf]
      congr 2
      rw [Bool.eq_iff_iff]
      simp only [decide_eq_true_eq, Bool.and_eq_true]
      omega
  rw [if_neg h3, if_neg h3]
  by_cases h4 : id = [2,5,29,30]
  · rw [if_pos h4, if_pos h4]
    rcases unmAll env nameConstraintsTy v with p | _ | ⟨c0, p, e, ⟨⟩⟩
    · rfl
    · rfl
    · refine Eq.trans ?_ (congrArg flagOf (setConstraints_eq s c p e).symm)
      cases h : (subtreesOk c p && subtreesOk c e)
      · exact if_neg (by rw [h]; simp)
      · exact if_pos h
  rw [if_neg h4, if_neg h4]
  by_cases h5 : id = [2,5,29,31]
  · rw [if_pos h5, if_pos h5]
    rcases unmAll env (.slice false dpTy) v with p | _ | dps
    · rfl
    · rfl
    · show handledIf (dpsOk env dps) = flagOf (withValue (dpUrls env dps s.crlPoints) (fun l => ({ s with crlPoints := l }, false)))
      rw [dpsOk_urls dps s.crlPoints]
      rcases dpUrls env dps s.crlPoints with p | _ | l <;> rfl
  rw [if_neg h5, if_neg h5]
  by_cases h6 : id = [2,5,29,35]
  · rw [if_pos h6, if_pos h6, flag_withValue (fun _ => rfl)]
  rw [if_neg h6, if_neg h6]
  by_cases h7 : id = [2,5,29,37]
  · rw [if_pos h7, if_pos h7, flag_withValue (fun _ => rfl)]
  rw [if_neg h7, if_neg h7]
  by_cases h8 : id = [2,5,29,14]
  · rw [if_pos h8, if_pos h8, flag_withValue (fun _ => rfl)]
  rw [if_neg h8, if_neg h8]
  by_cases h9 : id = [2,5,29,32]
  · rw [if_pos h9, if_pos h9, flag_withValue (fun _ => rfl)]
  rw [if_neg h9, if_neg h9]
  by_cases h10 : id = [1,3,6,1,5,5,7,1,1]
  · rw [if_pos h10, if_pos h10, flag_withValue (fun _ => rfl)]
  rw [if_neg h10, if_neg h10]
  rfl

theorem step_unhandled {env : AsnEnv} {s s' : ExtFields} {id : List Nat} {c : Bool} {v : Bytes} (h : FieldStep env s id c v s') : s'.unhandled = s.unhandled := by
  cases h <;> rfl

/-! ## All extensions -/

/-- The whole loop succeeds exactly if the loop of `Model/X509` does. -/
theorem loop_flag (env : AsnEnv) : ∀ (es : List (Bytes × List Nat × Bool × Bytes × Unit)) (s : ExtFields) (crit : Bool), (crit = true ↔ s.unhandled ≠ []) →
    extensionLoop env es crit = (match extFieldsLoop env es s with
      | .error p => .error p
      | .ok none => .ok none
      | .ok (some f) => .ok (some (decide (f.unhandled ≠ []))))
  | [], s, crit, hc => by
    simp only [extensionLoop, extFieldsLoop]
    congr 2
    rw [Bool.eq_iff_iff, decide_eq_true_eq]
    exact hc
  | e :: es, s, crit, hc => by
    rw [extensionLoop, extFieldsLoop, step_flag env s]
    cases h : extFieldsStep env s e.2.1 e.2.2.1 e.2.2.2.1 with
    | error p => rfl
    | ok r =>
      rcases r with _ | ⟨s', u⟩
      · rfl
      · simp only [flagOf]
        refine loop_flag env es _ _ ?_
        have hs := step_unhandled (step_inv h)
        cases hu : (e.2.2.1 && u)
        · simp only [Bool.or_false, Bool.false_eq_true, if_false]
          rw [hs]; exact hc
        · simp

theorem extsOf_cons_eq {e : Bytes × List Nat × Bool × Bytes × Unit} {es : List (Bytes × List Nat × Bool × Bytes × Unit)} :
    extsOf e.2.1 (e :: es) = (e.2.2.1, e.2.2.2.1) :: extsOf e.2.1 es := by
  simp [extsOf]

theorem extsOf_cons_ne {id : List Nat} {e : Bytes × List Nat × Bool × Bytes × Unit} {es : List (Bytes × List Nat × Bool × Bytes × Unit)} (h : e.2.1 ≠ id) :
    extsOf id (e :: es) = extsOf id es := by
  simp [extsOf, h]

theorem loop_cons {env : AsnEnv} {e : Bytes × List Nat × Bool × Bytes × Unit} {es : List (Bytes × List Nat × Bool × Bytes × Unit)} {s f : ExtFields}
    (h : extFieldsLoop env (e :: es) s = .ok (some f)) : ∃ s' u, extFieldsStep env s e.2.1 e.2.2.1 e.2.2.2.1 = .ok (some (s', u)) ∧
      extFieldsLoop env es (if e.2.2.1 && u then { s' with unhandled := s'.unhandled ++ [e.2.1] } else s') = .ok (some f) := by
  rw [extFieldsLoop] at h
  cases hs : extFieldsStep env s e.2.1 e.2.2.1 e.2.2.2.1 with
  | error p => rw [hs] at h; cases h
  | ok r =>
    rw [hs] at h
    rcases r with _ | ⟨s', u⟩
    · cases h
    · exact ⟨s', u, rfl, h⟩

theorem loop_last {α : Type} {env : AsnEnv} (π : ExtFields → α) (id : List Nat) (P : Bool → Bytes → α → Prop)
    (hne : ∀ {s s' : ExtFields} {id' : List Nat} {c : Bool} {v : Bytes}, FieldStep env s id' c v s' → id' ≠ id → π s' = π s)
    (heq : ∀ {s s' : ExtFields} {c : Bool} {v : Bytes}, FieldStep env s id c v s' → P c v (π s'))
    (hun : ∀ (s : ExtFields) (l : List (List Nat)), π { s with unhandled := l } = π s) :
    ∀ {es : List (Bytes × List Nat × Bool × Bytes × Unit)} {s f : ExtFields}, extFieldsLoop env es s = .ok (some f) → FromLast es id (π s) P (π f)
  | [], s, f, h => by
    cases h
    exact .inl ⟨rfl, rfl⟩
  | e :: es, s, f, h => by
    obtain ⟨s', u, hs, hl⟩ := loop_cons h
    have hst := step_inv hs
    have ih := loop_last π id P hne heq hun hl
    have hπ : π (if (e.2.2.1 && u) = true then { s' with unhandled := s'.unhandled ++ [e.2.1] } else s') = π s' := by
      split
      · exact hun _ _
      · rfl
    rw [hπ] at ih
    by_cases hid : e.2.1 = id
    · subst hid
      rcases ih with ⟨h1, h2⟩ | ⟨before, c, v, h1, h2⟩
      · refine .inr ⟨[], e.2.2.1, e.2.2.2.1, by rw [extsOf_cons_eq, h1]; rfl, ?_⟩
        rw [h2]
        exact heq hst
      · exact .inr ⟨_ :: before, c, v, by rw [extsOf_cons_eq, h1]; rfl, h2⟩
    · rw [hne hst hid] at ih
      unfold FromLast
      rw [extsOf_cons_ne hid]
      exact ih

theorem loop_all {α : Type} {env : AsnEnv} (π : ExtFields → List α) (id : List Nat) (P : Bytes → List α → Prop)
    (hne : ∀ {s s' : ExtFields} {id' : List Nat} {c : Bool} {v : Bytes}, FieldStep env s id' c v s' → id' ≠ id → π s' = π s)
    (heq : ∀ {s s' : ExtFields} {c : Bool} {v : Bytes}, FieldStep env s id c v s' → ∃ p, P v p ∧ π s' = π s ++ p)
    (hun : ∀ (s : ExtFields) (l : List (List Nat)), π { s with unhandled := l } = π s) :
    ∀ {es : List (Bytes × List Nat × Bool × Bytes × Unit)} {s f : ExtFields}, extFieldsLoop env es s = .ok (some f) →
      ∃ xs, FromAll es id P xs ∧ π f = π s ++ xs
  | [], s, f, h => by
    cases h
    exact ⟨[], ⟨[], .nil, rfl⟩, by simp⟩
  | e :: es, s, f, h => by
    obtain ⟨s', u, hs, hl⟩ := loop_cons h
    have hst := step_inv hs
    obtain ⟨xs, ⟨parts, h1, h2⟩, h3⟩ := loop_all π id P hne heq hun hl
    have hπ : π (if (e.2.2.1 && u) = true then { s' with unhandled := s'.unhandled ++ [e.2.1] } else s') = π s' := by
      split
      · exact hun _ _
      · rfl
    rw [hπ] at h3
    by_cases hid : e.2.1 = id
    · subst hid
      obtain ⟨p, hp, he⟩ := heq hst
      refine ⟨p ++ xs, ⟨p :: parts, ?_, by simp [h2]⟩, by rw [h3, he]; simp⟩
      rw [extsOf_cons_eq]
      exact .cons hp h1
    · rw [hne hst hid] at h3
      refine ⟨xs, ⟨parts, ?_, h2⟩, h3⟩
      rw [extsOf_cons_ne hid]
      exact h1

theorem loop_unhandled {env : AsnEnv} : ∀ {es : List (Bytes × List Nat × Bool × Bytes × Unit)} {s f : ExtFields}, extFieldsLoop env es s = .ok (some f) →
    ∃ xs, UnhandledAre env es xs ∧ f.unhandled = s.unhandled ++ xs
  | [], s, f, h => by
    cases h
    exact ⟨[], ⟨[], .nil, rfl⟩, by simp⟩
  | e :: es, s, f, h => by
    obtain ⟨s', u, hs, hl⟩ := loop_cons h
    obtain ⟨xs, ⟨parts, h1, h2⟩, h3⟩ := loop_unhandled hl
    have hu := step_unhandled (step_inv hs)
    have hx : ExtensionIs env e.2.1 e.2.2.1 e.2.2.2.1 u := by
      apply extensionStep_iff.1
      rw [step_flag env s, hs]
      rfl
    refine ⟨(if e.2.2.1 = true ∧ u = true then [e.2.1] else []) ++ xs, ⟨_ :: parts, .cons ⟨u, hx, rfl⟩ h1, by simp [h2]⟩, ?_⟩
    rw [h3]
    cases hc : e.2.2.1 <;> cases u <;> simp [hu]

theorem loop_fields {env : AsnEnv} {es : List (Bytes × List Nat × Bool × Bytes × Unit)} {f : ExtFields} (h : extFieldsLoop env es {} = .ok (some f)) :
    ExtFieldsAre env es f where
  keyUsage := loop_last (fun s => s.keyUsage) [2,5,29,15] _ (fun h n => by cases h <;> first | rfl | exact absurd rfl n)
    (fun h => by cases h with | usage h => exact h | other h => exact absurd h (by decide)) (fun _ _ => rfl) h
  basic := loop_last (fun s => (s.basicConstraintsValid, s.isCA, s.maxPathLen, s.maxPathLenZero)) [2,5,29,19] _
    (fun h n => by cases h <;> first | rfl | exact absurd rfl n)
    (fun h => by cases h with | basic h => exact h | other h => exact absurd h (by decide)) (fun _ _ => rfl) h
  altNames := loop_last (fun s => (s.dnsNames, s.emails, s.ips)) [2,5,29,17] _ (fun h n => by cases h <;> first | rfl | exact absurd rfl n)
    (fun h => by cases h with | san h => exact h | other h => exact absurd h (by decide)) (fun _ _ => rfl) h
  constraints := loop_last (fun s => (s.permittedCritical, s.permitted, s.excluded)) [2,5,29,30] _ (fun h n => by cases h <;> first | rfl | exact absurd rfl n)
    (fun h => by cases h with | constraints h => exact h | other h => exact absurd h (by decide)) (fun _ _ => rfl) h
  crlPoints := by
    obtain ⟨xs, hx, e⟩ := loop_all (fun s => s.crlPoints) [2,5,29,31] (PointsAre env) (fun h n => by cases h <;> first | rfl | exact absurd rfl n)
      (fun h => by cases h with | points h => exact ⟨_, h, rfl⟩ | other h => exact absurd h (by decide)) (fun _ _ => rfl) h
    rw [e]; exact hx
  authorityKeyId := loop_last (fun s => s.authorityKeyId) [2,5,29,35] _ (fun h n => by cases h <;> first | rfl | exact absurd rfl n)
    (fun h => by cases h with | aki h => exact h | other h => exact absurd h (by decide)) (fun _ _ => rfl) h
  extKeyUsage := by
    obtain ⟨xs, hx, e⟩ := loop_all (fun s => s.extKeyUsage) [2,5,29,37] (PurposesAre env) (fun h n => by cases h <;> first | rfl | exact absurd rfl n)
      (fun h => by cases h with | eku h _ => exact ⟨_, h, rfl⟩ | other h => exact absurd h (by decide)) (fun _ _ => rfl) h
    rw [e]; exact hx
  unknownExtKeyUsage := by
    obtain ⟨xs, hx, e⟩ := loop_all (fun s => s.unknownExtKeyUsage) [2,5,29,37] (OtherPurposesAre env) (fun h n => by cases h <;> first | rfl | exact absurd rfl n)
      (fun h => by cases h with | eku _ h => exact ⟨_, h, rfl⟩ | other h => exact absurd h (by decide)) (fun _ _ => rfl) h
    rw [e]; exact hx
  subjectKeyId := loop_last (fun s => s.subjectKeyId) [2,5,29,14] _ (fun h n => by cases h <;> first | rfl | exact absurd rfl n)
    (fun h => by cases h with | ski h => exact h | other h => exact absurd h (by decide)) (fun _ _ => rfl) h
  policies := loop_last (fun s => s.policies) [2,5,29,32] _ (fun h n => by cases h <;> first | rfl | exact absurd rfl n)
    (fun h => by cases h with | policies h => exact h | other h => exact absurd h (by decide)) (fun _ _ => rfl) h
  ocspServer := by
    obtain ⟨xs, hx, e⟩ := loop_all (fun s => s.ocspServer) [1,3,6,1,5,5,7,1,1] (AccessIs env [1,3,6,1,5,5,7,48,1]) (fun h n => by cases h <;> first | rfl | exact absurd rfl n)
      (fun h => by cases h with | access h _ => exact ⟨_, h, rfl⟩ | other h => exact absurd h (by decide)) (fun _ _ => rfl) h
    rw [e]; exact hx
  issuingUrl := by
    obtain ⟨xs, hx, e⟩ := loop_all (fun s => s.issuingUrl) [1,3,6,1,5,5,7,1,1] (AccessIs env [1,3,6,1,5,5,7,48,2]) (fun h n => by cases h <;> first | rfl | exact absurd rfl n)
      (fun h => by cases h with | access _ h => exact ⟨_, h, rfl⟩ | other h => exact absurd h (by decide)) (fun _ _ => rfl) h
    rw [e]; exact hx
  unhandled := by
    obtain ⟨xs, hx, e⟩ := loop_unhandled h
    rw [e]; exact hx

/-! ## Uniqueness -/

theorem listRel_unique {α β : Type} {R : α → β → Prop} (hR : ∀ a b b', R a b → R a b' → b = b') :
    ∀ {l : List α} {m m' : List β}, ListRel R l m → ListRel R l m' → m = m'
  | _, _, _, .nil, .nil => rfl
  | _, _, _, .cons h t, .cons h' t' => by rw [hR _ _ _ h h', listRel_unique hR t t']

theorem fromLast_unique {α : Type} {exts : List (Bytes × List Nat × Bool × Bytes × Unit)} {id : List Nat} {d : α} {P : Bool → Bytes → α → Prop} {x x' : α}
    (hP : ∀ c v y y', P c v y → P c v y' → y = y') (h : FromLast exts id d P x) (h' : FromLast exts id d P x') : x = x' := by
  rcases h with ⟨h1, rfl⟩ | ⟨b, c, v, h1, h2⟩ <;> rcases h' with ⟨h1', rfl⟩ | ⟨b', c', v', h1', h2'⟩
  · rfl
  · rw [h1] at h1'; simp at h1'
  · rw [h1'] at h1; simp at h1
  · rw [h1] at h1'
    have := List.append_inj_right' h1' rfl
    simp only [List.cons.injEq, Prod.mk.injEq, and_true] at this
    obtain ⟨rfl, rfl⟩ := this
    exact hP _ _ _ _ h2 h2'

theorem fromAll_unique {α : Type} {exts : List (Bytes × List Nat × Bool × Bytes × Unit)} {id : List Nat} {P : Bytes → List α → Prop} {x x' : List α}
    (hP : ∀ v y y', P v y → P v y' → y = y') (h : FromAll exts id P x) (h' : FromAll exts id P x') : x = x' := by
  obtain ⟨p, h1, rfl⟩ := h
  obtain ⟨p', h1', rfl⟩ := h'
  have e : p = p' := listRel_unique (R := fun (e : Bool × Bytes) p => P e.2 p) (fun e b b' a c => hP e.2 b b' a c) h1 h1'
  rw [e]

theorem usage_unique {env : AsnEnv} {v : Bytes} {u u' : Nat} (h : UsageIs env v u) (h' : UsageIs env v u') : u = u' := by
  obtain ⟨b, hr, hl, hb⟩ := h
  obtain ⟨b', hr', hl', hb'⟩ := h'
  have e := (reads_unique (t := .bits) hr hr').1
  subst e
  apply Nat.eq_of_testBit_eq
  intro i
  by_cases hi : i < 9
  · rw [Bool.eq_iff_iff, hb i hi, hb' i hi]
  · have : 512 ≤ 2 ^ i := Nat.pow_le_pow_right (n := 2) (i := 9) (by omega) (by omega)
    rw [Nat.testBit_lt_two_pow (by omega), Nat.testBit_lt_two_pow (by omega)]

theorem basic_unique {env : AsnEnv} {v : Bytes} {x x' : Bool × Bool × Int × Bool} (h : BasicIs env v x) (h' : BasicIs env v x') : x = x' := by
  obtain ⟨c, ca, len, hr, rfl⟩ := h
  obtain ⟨c', ca', len', hr', rfl⟩ := h'
  have e := (reads_unique (t := Schema.basicConstraints) hr hr').1
  cases e
  rfl

theorem elem_content_unique {content content' b : Bytes} (h : Elem 0 16 true content b) (h' : Elem 0 16 true content' b) : content = content' := by
  have env : AsnEnv := ⟨fun _ => true, fun _ => [], fun _ => none, fun _ => none⟩
  have := Option.some.inj (Except.ok.inj ((rawVal_of_elem h env []).symm.trans (rawVal_of_elem h' env [])))
  exact congrArg (fun x : RawVal × Bytes => x.1.bytes) this

theorem san_unique {v : Bytes} {x x' : List Bytes × List Bytes × List Bytes} (h : SanIs v x) (h' : SanIs v x') : x = x' := by
  obtain ⟨c, he, ha⟩ := h
  obtain ⟨c', he', ha'⟩ := h'
  cases elem_content_unique he he'
  obtain ⟨h1, h2, h3⟩ := altNames_unique ha ha'
  exact Prod.ext h1 (Prod.ext h2 h3)

theorem constraints_unique {env : AsnEnv} {c : Bool} {v : Bytes} {x x' : Bool × List Bytes × List Bytes} (h : ConstraintsAre env c v x) (h' : ConstraintsAre env c v x') :
    x = x' := by
  obtain ⟨c, p, e, hr, rfl⟩ := h
  obtain ⟨c', p', e', hr', rfl⟩ := h'
  have e := (reads_unique (t := Schema.nameConstraints) hr hr').1
  cases e
  rfl

theorem pointUrl_unique {f : RawVal} {u u' : List Bytes} (h : PointUrl f u) (h' : PointUrl f u') : u = u' := by
  rcases h with ⟨h1, rfl⟩ | ⟨cls, tag, con, c, e, rest, h1, he, rfl⟩ <;> rcases h' with ⟨h1', rfl⟩ | ⟨cls', tag', con', c', e', rest', h1', he', rfl⟩
  · rfl
  · rw [h1] at h1'
    exact absurd (List.append_eq_nil_iff.1 h1'.symm).1 he'.ne
  · rw [h1'] at h1
    exact absurd (List.append_eq_nil_iff.1 h1.symm).1 he.ne
  · have env : AsnEnv := ⟨fun _ => true, fun _ => [], fun _ => none, fun _ => none⟩
    have a := rawVal_of_elem he env rest
    rw [← h1, h1', rawVal_of_elem he' env rest'] at a
    have a := Option.some.inj (Except.ok.inj a)
    have a1 : tag' = tag := congrArg (fun x : RawVal × Bytes => x.1.tag) a
    have a2 : c' = c := congrArg (fun x : RawVal × Bytes => x.1.bytes) a
    rw [a1, a2]

theorem points_unique {env : AsnEnv} {v : Bytes} {u u' : List Bytes} (h : PointsAre env v u) (h' : PointsAre env v u') : u = u' := by
  obtain ⟨p, ps, hr, hl, rfl⟩ := h
  obtain ⟨p', ps', hr', hl', rfl⟩ := h'
  have e := (reads_unique (t := .slice false Schema.distributionPoint) hr hr').1
  subst e
  have e : ps = ps' := by
    refine listRel_unique ?_ hl hl'
    intro p b b' a c
    exact pointUrl_unique a c
  rw [e]

theorem aki_unique {env : AsnEnv} {v k k' : Bytes} (h : AuthorityKeyIs env v k) (h' : AuthorityKeyIs env v k') : k = k' := by
  obtain ⟨a, h⟩ := h
  obtain ⟨a', h'⟩ := h'
  have e := (reads_unique (t := Schema.authorityKeyIdentifier) h h').1
  cases e
  rfl

theorem purposes_unique {env : AsnEnv} {v : Bytes} {x x' : List Nat} (h : PurposesAre env v x) (h' : PurposesAre env v x') : x = x' := by
  obtain ⟨a, h, rfl⟩ := h
  obtain ⟨a', h', rfl⟩ := h'
  have e := (reads_unique (t := .slice false .oid) h h').1
  cases e
  rfl

theorem others_unique {env : AsnEnv} {v : Bytes} {x x' : List (List Nat)} (h : OtherPurposesAre env v x) (h' : OtherPurposesAre env v x') : x = x' := by
  obtain ⟨a, h, rfl⟩ := h
  obtain ⟨a', h', rfl⟩ := h'
  have e := (reads_unique (t := .slice false .oid) h h').1
  cases e
  rfl

theorem policies_unique {env : AsnEnv} {v : Bytes} {x x' : List (List Nat)} (h : PoliciesAre env v x) (h' : PoliciesAre env v x') : x = x' := by
  obtain ⟨a, h, rfl⟩ := h
  obtain ⟨a', h', rfl⟩ := h'
  have e := (reads_unique (t := .slice false Schema.policyInformation) h h').1
  cases e
  rfl

theorem access_unique {env : AsnEnv} {m : List Nat} {v : Bytes} {x x' : List Bytes} (h : AccessIs env m v x) (h' : AccessIs env m v x') : x = x' := by
  obtain ⟨a, h, rfl⟩ := h
  obtain ⟨a', h', rfl⟩ := h'
  have e := (reads_unique (t := .slice false Schema.accessDescription) h h').1
  cases e
  rfl

theorem unhandled_unique {env : AsnEnv} {es : List (Bytes × List Nat × Bool × Bytes × Unit)} {x x' : List (List Nat)} (h : UnhandledAre env es x)
    (h' : UnhandledAre env es x') : x = x' := by
  obtain ⟨p, h1, rfl⟩ := h
  obtain ⟨p', h1', rfl⟩ := h'
  have e : p = p' := by
    refine listRel_unique ?_ h1 h1'
    rintro e b b' ⟨u, hu, rfl⟩ ⟨u', hu', rfl⟩
    rw [extensionIs_unique hu hu']
  rw [e]

theorem extFields_unique {env : AsnEnv} {es : List (Bytes × List Nat × Bool × Bytes × Unit)} {f f' : ExtFields} (h : ExtFieldsAre env es f)
    (h' : ExtFieldsAre env es f') : f = f' := by
  have e1 := fromLast_unique (P := fun _ v x => UsageIs env v x) (fun _ _ _ _ a b => usage_unique a b) h.keyUsage h'.keyUsage
  have e2 := fromLast_unique (P := fun _ v x => BasicIs env v x) (fun _ _ _ _ a b => basic_unique a b) h.basic h'.basic
  have e3 := fromLast_unique (P := fun _ v x => SanIs v x) (fun _ _ _ _ a b => san_unique a b) h.altNames h'.altNames
  have e4 := fromLast_unique (P := ConstraintsAre env) (fun _ _ _ _ a b => constraints_unique a b) h.constraints h'.constraints
  have e5 := fromAll_unique (P := PointsAre env) (fun _ _ _ a b => points_unique a b) h.crlPoints h'.crlPoints
  have e6 := fromLast_unique (P := fun _ v x => AuthorityKeyIs env v x) (fun _ _ _ _ a b => aki_unique a b) h.authorityKeyId h'.authorityKeyId
  have e7 := fromAll_unique (P := PurposesAre env) (fun _ _ _ a b => purposes_unique a b) h.extKeyUsage h'.extKeyUsage
  have e8 := fromAll_unique (P := OtherPurposesAre env) (fun _ _ _ a b => others_unique a b) h.unknownExtKeyUsage h'.unknownExtKeyUsage
  have e9 := fromLast_unique (P := fun _ v x => SubjectKeyIs env v x) (fun _ _ _ _ a b => (reads_unique (t := .octets) a b).1) h.subjectKeyId h'.subjectKeyId
  have e10 := fromLast_unique (P := fun _ v x => PoliciesAre env v x) (fun _ _ _ _ a b => policies_unique a b) h.policies h'.policies
  have e11 := fromAll_unique (P := AccessIs env _) (fun _ _ _ a b => access_unique a b) h.ocspServer h'.ocspServer
  have e12 := fromAll_unique (P := AccessIs env _) (fun _ _ _ a b => access_unique a b) h.issuingUrl h'.issuingUrl
  have e13 := unhandled_unique h.unhandled h'.unhandled
  cases f
  cases f'
  simp only [Prod.mk.injEq] at e1 e2 e3 e4 e5 e6 e7 e8 e9 e10 e11 e12 e13
  obtain ⟨_, _, _, _⟩ := e2
  obtain ⟨_, _, _⟩ := e3
  obtain ⟨_, _, _⟩ := e4
  subst_vars
  rfl

/-! ## The whole certificate -/

theorem keyAlgorithm_iff {oid : List Nat} {a : PKAlgo} : KeyAlgorithmIs oid a ↔ pkAlgo oid = a := by
  constructor
  · intro h
    cases h with
    | rsa => rfl
    | dsa => rfl
    | ecdsa => rfl
    | unknown h => exact pkAlgo_unknown.2 h
  · rintro rfl
    by_cases hu : oid ∈ keyAlgorithms
    · unfold keyAlgorithms at hu
      simp only [List.mem_cons, List.not_mem_nil, or_false] at hu
      rcases hu with rfl | rfl | rfl
      · exact .rsa
      · exact .dsa
      · exact .ecdsa
    · rw [pkAlgo_unknown.2 hu]
      exact .unknown hu

theorem version_range {env : AsnEnv} {v : certificateTy.interp} {b rest : Bytes} (h : Reads env certificateTy {} v b rest) : IsInt64 v.2.1.2.1 := by
  obtain ⟨raw, ⟨tbs, version, r⟩, r'⟩ := v
  obtain ⟨i1, h⟩ := reads_struct_inv h
  obtain ⟨r0, h, _⟩ := readsAll_cons.1 h
  rw [fp_empty] at h
  obtain ⟨i2, h⟩ := reads_struct_inv h
  obtain ⟨r1, h, _⟩ := readsAll_cons.1 h
  rcases (reads_prim (t := .int) (by simp) (by simp) (by simp)).1 h with ⟨_, _, _, _, _, hi⟩ | ⟨_, h2, _⟩ | ⟨h, _⟩
  · exact hi
  · have h2 : version = (parseFP (b!"optional,explicit,default:0,tag:0")).dflt.getD 0 := h2
    have hd : (parseFP (b!"optional,explicit,default:0,tag:0")).dflt.getD 0 = 0 := by decide +kernel
    rw [hd] at h2
    subst h2
    show IsInt64 (0 : Int)
    unfold IsInt64
    decide
  · cases h

theorem certVersion_eq {v : Int} (h : IsInt64 v) : certVersion v = if v = 2 ^ 63 - 1 then -(2 ^ 63) else v + 1 := by
  unfold IsInt64 at h
  unfold certVersion
  split <;> omega

theorem fullStruct_iff {env : CertEnv} {c : certificateTy.interp} {x : CertFull} : parseFullStruct env c = .ok (some x) ↔
    ∃ ext, parseCertStruct env (CertV.of c) = .ok (some (x.base, x.key)) ∧ extFieldsLoop env.toAsnEnv (CertV.of c).extensions {} = .ok (some ext) ∧
      x = ⟨x.base, x.key, pkAlgo (CertV.of c).keyAlg.oid, c.2.1.1, RawVal.full c.2.1.2.2.2.2.2.2.1, RawVal.full c.2.1.2.2.2.2.1, rightAlign c.2.2.2.1, certVersion c.2.1.2.1,
        (CertV.of c).extensions.map (fun e => (e.2.1, e.2.2.1, e.2.2.2.1)), ext⟩ := by
  unfold parseFullStruct
  rcases hp : parseCertStruct env (CertV.of c) with p | _ | ⟨base, key⟩
  · simp
  · simp
  · rcases he : extFieldsLoop env.toAsnEnv (CertV.of c).extensions {} with p | _ | ext
    · simp
    · simp
    · constructor
      · intro h
        have h : (⟨base, key, pkAlgo (CertV.of c).keyAlg.oid, c.2.1.1, RawVal.full c.2.1.2.2.2.2.2.2.1, RawVal.full c.2.1.2.2.2.2.1, rightAlign c.2.2.2.1,
          certVersion c.2.1.2.1, (CertV.of c).extensions.map (fun e => (e.2.1, e.2.2.1, e.2.2.2.1)), ext⟩ : CertFull) = x := Option.some.inj (Except.ok.inj h)
        subst h
        exact ⟨ext, rfl, rfl, rfl⟩
      · rintro ⟨e, h1, h2, h3⟩
        have h1 := Option.some.inj (Except.ok.inj h1)
        have h2 := Option.some.inj (Except.ok.inj h2)
        subst h2
        have h4 : base = x.base := congrArg Prod.fst h1
        have h5 : key = x.key := congrArg Prod.snd h1
        rw [h3]
        show Except.ok (some (⟨base, key, pkAlgo (CertV.of c).keyAlg.oid, c.2.1.1, RawVal.full c.2.1.2.2.2.2.2.2.1, RawVal.full c.2.1.2.2.2.2.1, rightAlign c.2.2.2.1,
          certVersion c.2.1.2.1, (CertV.of c).extensions.map (fun e => (e.2.1, e.2.2.1, e.2.2.2.1)), ext⟩ : CertFull)) = _
        rw [h4, h5]

theorem parseFull_sound {env : CertEnv} {b : Bytes} {x : CertFull} (h : parseFull env b = .ok (some x)) : FullCertificateIs env b x := by
  unfold parseFull at h
  obtain ⟨r, hr⟩ := unmAll_total env.toAsnEnv certificateTy b
  rw [hr] at h
  rcases r with _ | c
  · cases h
  · have hc := unmAll_iff.1 hr
    obtain ⟨ext, h1, h2, e⟩ := fullStruct_iff.1 (show parseFullStruct env c = .ok (some x) from h)
    have hv := version_range hc
    refine ⟨certificateReads_iff.2 ⟨c, hc, h1⟩, ?_⟩
    obtain ⟨raw, ⟨tbs, version, serial, ⟨s0, sigOid, sigParams, ⟨⟩⟩, issuer, ⟨v0, nb, na, ⟨⟩⟩, subject, ⟨spki, ⟨a0, keyOid, keyParams, ⟨⟩⟩, keyBits, ⟨⟩⟩, iid, sid, exts, ⟨⟩⟩,
      ⟨o0, outerOid, outerParams, ⟨⟩⟩, sg, ⟨⟩⟩ := c
    refine ⟨raw, tbs, v0, spki, s0, a0, o0, version, nb, na, serial, sigOid, keyOid, outerOid, sigParams, keyParams, outerParams, issuer, subject, keyBits, iid, sid, sg,
      exts, hc, ?_⟩
    rw [e]
    exact ⟨rfl, rfl, rfl, aligned_iff.2 rfl, certVersion_eq hv, keyAlgorithm_iff.2 rfl, rfl, loop_fields h2⟩

/-- A certificate with these fields is read whenever the one of `Model/X509` is, with the same base. -/
theorem parseFull_of {env : CertEnv} {b : Bytes} {cert : Cert} {k : Key} (h : parseCert509 env b = .ok (some (cert, k))) :
    ∃ x, parseFull env b = .ok (some x) ∧ x.base = cert ∧ x.key = k ∧ (cert.critExt = true ↔ x.ext.unhandled ≠ []) := by
  unfold parseCert509 at h
  unfold parseFull
  obtain ⟨r, hr⟩ := unmAll_total env.toAsnEnv certificateTy b
  rw [hr] at h ⊢
  rcases r with _ | c
  · cases h
  · have h : parseCertStruct env (CertV.of c) = .ok (some (cert, k)) := h
    obtain ⟨sa, re, subj, iss, crit, _, _, _, _, h5, hcert⟩ := parseCertStruct_iff.1 h
    have hl := extensionsAre_iff.2 h5
    rw [loop_flag env.toAsnEnv _ {} false (by simp)] at hl
    cases hf : extFieldsLoop env.toAsnEnv (CertV.of c).extensions {} with
    | error p => rw [hf] at hl; cases hl
    | ok r =>
      rw [hf] at hl
      rcases r with _ | ext
      · cases hl
      · refine ⟨⟨cert, k, pkAlgo (CertV.of c).keyAlg.oid, c.2.1.1, RawVal.full c.2.1.2.2.2.2.2.2.1, RawVal.full c.2.1.2.2.2.2.1, rightAlign c.2.2.2.1,
          certVersion c.2.1.2.1, (CertV.of c).extensions.map (fun e => (e.2.1, e.2.2.1, e.2.2.2.1)), ext⟩, fullStruct_iff.2 ⟨ext, h, hf, rfl⟩, rfl, rfl, ?_⟩
        simp only [Except.ok.injEq, Option.some.injEq] at hl
        rw [hcert]
        show crit = true ↔ ext.unhandled ≠ []
        rw [← hl, decide_eq_true_eq]

theorem full_unique {env : CertEnv} {b : Bytes} {x x' : CertFull} (h : FullCertificateIs env b x) (h' : FullCertificateIs env b x') : x = x' := by
  obtain ⟨hc, _, tbs, _, _, _, _, _, version, _, _, _, _, keyOid, _, _, _, _, issuer, subject, _, _, _, sg, exts, hr, a1, a2, a3, a4, a5, a6, a7, a8⟩ := h
  obtain ⟨hc', _, tbs', _, _, _, _, _, version', _, _, _, _, keyOid', _, _, _, _, issuer', subject', _, _, _, sg', exts', hr', b1, b2, b3, b4, b5, b6, b7, b8⟩ := h'
  have e := (reads_unique (t := Schema.certificate) hr hr').1
  cases e
  have e := (parseCert509_iff.2 hc).symm.trans (parseCert509_iff.2 hc')
  simp only [Except.ok.injEq, Option.some.injEq, Prod.mk.injEq] at e
  have a4 := aligned_iff.1 a4
  have b4 := aligned_iff.1 b4
  have a6 := keyAlgorithm_iff.1 a6
  have b6 := keyAlgorithm_iff.1 b6
  have a8 := extFields_unique a8 b8
  cases x
  cases x'
  simp only at e a1 a2 a3 a4 a5 a6 a7 a8 b1 b2 b3 b4 b5 b6 b7
  obtain ⟨e1, e2⟩ := e
  rw [e1, e2, a1, a2, a3, a4, a5, a7, a8, b1, b2, b3, b4, b5, b7, ← a6, ← b6]

theorem parseFull_iff {env : CertEnv} {b : Bytes} {x : CertFull} : parseFull env b = .ok (some x) ↔ FullCertificateIs env b x := by
  refine ⟨parseFull_sound, fun h => ?_⟩
  obtain ⟨x', hx', _⟩ := parseFull_of (parseCert509_iff.2 h.1)
  rw [full_unique h (parseFull_sound hx')]
  exact hx'

end Apk
