import Verif.Spec.Create
import Verif.Proofs.CertFull
import Verif.Proofs.MarshalFits
/-! # Reading back the extensions written from a template -/
namespace Apk
namespace Cre

/-- What is written is read. -/
theorem read_written {env : AsnEnv} {t : Ty} {v : t.interp} {b : Bytes} (h : marshal (stdMar env) t v = .ok b) (hl : b.length < 2 ^ 31)
    (hf : Fits env (stdMar env) t {} v []) : ∃ w, unmAll env t b = .ok (some w) ∧ Same true t false v w := by
  rw [marshal, show parseMP [] = {} from by decide] at h
  obtain ⟨w, hr, hs⟩ := Mar.makeField_reads env (stdMar env) t {} Mar.empty_ok v b [] h hl hf
  rw [List.append_nil] at hr
  exact ⟨w, unmAll_iff.2 hr, hs⟩

theorem same_slice {e : Ty} (v w : (Ty.slice false e).interp) (h : Same true (.slice false e) false v w) : ListRel (Same true e false) v w := by
  rw [Same] at h
  obtain ⟨u, hu, hr⟩ := h
  rw [if_neg (by simp)] at hu
  rw [← hu]; exact hr

theorem same_struct {raw : Bool} {fs : Fields} (v w : (Ty.struct raw fs).interp) (h : Same true (.struct raw fs) false v w) : SameAll true fs v.2 w.2 := by
  rw [Same] at h; exact h

theorem same_cons {tag : Bytes} {t : Ty} {fs : Fields} (v w : (Fields.cons tag t fs).interp) (h : SameAll true (.cons tag t fs) v w) :
    Same true t (parseFP tag).set v.1 w.1 ∧ SameAll true fs v.2 w.2 := by
  rw [SameAll] at h; exact h

theorem same_leaf {t : Ty} (hl : Mar.IsLeaf t) {iss : Bool} {v w : t.interp} (h : Same true t iss v w) : w = v := by
  obtain ⟨h1, h2, h3, h4⟩ := hl
  cases t
  case any => exact absurd rfl h1
  case rawValue => exact absurd rfl h2
  case struct r fs => exact absurd rfl (h3 r fs)
  case slice s e => exact absurd rfl (h4 s e)
  all_goals (rw [Same] at h; exact h.symm; all_goals simp)

theorem same_raw {iss : Bool} {v w : Ty.rawValue.interp} (h : Same true .rawValue iss v w) : SameRaw v w := by
  rw [Same] at h; exact h

/-! ## Key usage -/

theorem lowest_spec (b : UInt8) (h : b ≠ 0) : ∃ k, k < 8 ∧ lowestBit b = some k ∧ b.toNat % 2 ^ k = 0 := by
  have key : ∀ n : Fin 256, n.val ≠ 0 → ∃ k : Fin 8, lowestBit (UInt8.ofNat n.val) = some k.val ∧ n.val % 2 ^ k.val = 0 := by decide +kernel
  obtain ⟨k, h1, h2⟩ := key ⟨b.toNat, b.toNat_lt⟩ (fun e => h (by rw [← UInt8.toNat_inj]; exact e))
  rw [UInt8.ofNat_toNat] at h1
  exact ⟨k.val, k.isLt, h1, h2⟩

theorem bitLength_snoc (init : Bytes) (b : UInt8) (h : b ≠ 0) : ∃ k, k < 8 ∧ asn1BitLength (init ++ [b]) = (init.length + 1) * 8 - k ∧ b.toNat % 2 ^ k = 0 := by
  obtain ⟨k, h1, h2, h3⟩ := lowest_spec b h
  refine ⟨k, h1, ?_, h3⟩
  rw [asn1BitLength, List.reverse_append, List.reverse_singleton, List.singleton_append, bitLengthFrom, h2]
  simp

theorem bits_fit {env : AsnEnv} {menv : MarEnv} {init : Bytes} {b : UInt8} (h : b ≠ 0) :
    LeafFits env menv {} .bits (⟨init ++ [b], asn1BitLength (init ++ [b])⟩ : BitStr) := by
  obtain ⟨k, h1, h2, h3⟩ := bitLength_snoc init b h
  show BitContents _ (UInt8.ofNat (8 * (init ++ [b]).length - asn1BitLength (init ++ [b])) :: (init ++ [b]))
  rw [h2]
  have hl : (init ++ [b]).length = init.length + 1 := by simp
  have hk : 8 * (init ++ [b]).length - ((init.length + 1) * 8 - k) = k := by rw [hl]; omega
  have hkn : (UInt8.ofNat k).toNat = k := by rw [UInt8.toNat_ofNat']; omega
  rw [hk]
  refine ⟨UInt8.ofNat k, rfl, by rw [hkn]; exact h1, ?_, ?_⟩
  · show (init.length + 1) * 8 - k + (UInt8.ofNat k).toNat = (init ++ [b]).length * 8
    rw [hkn, hl]; omega
  · have : (UInt8.ofNat k :: (init ++ [b])).getLast (by simp) = b := by simp [List.getLast_cons]
    show (List.getLast (UInt8.ofNat k :: (init ++ [b])) _).toNat % _ = 0
    rw [this, hkn]; exact h3

theorem usage_congr {a b : BitStr} (h : ∀ i, i < 9 → bitAt a i = bitAt b i) : usageOf a = usageOf b := by
  unfold usageOf
  have key : ∀ (l : List Nat) (s : Nat), (∀ i ∈ l, i < 9) →
      l.foldl (fun usage i => if bitAt a i ≠ 0 then usage ||| 2 ^ i else usage) s = l.foldl (fun usage i => if bitAt b i ≠ 0 then usage ||| 2 ^ i else usage) s := by
    intro l
    induction l with
    | nil => intro s _; rfl
    | cons i l ih =>
      intro s hl
      rw [List.foldl_cons, List.foldl_cons, h i (hl i (List.mem_cons_self ..)), ih _ (fun j hj => hl j (List.mem_cons_of_mem _ hj))]
  exact key _ _ (fun i hi => List.mem_range.1 hi)

theorem usage_one (n : Nat) : usageOf ⟨[reverseBits (UInt8.ofNat n)], asn1BitLength [reverseBits (UInt8.ofNat n)]⟩ = n % 256 := by
  have key : ∀ x : Fin 256, usageOf ⟨[reverseBits (UInt8.ofNat x.val)], asn1BitLength [reverseBits (UInt8.ofNat x.val)]⟩ = x.val := by decide +kernel
  have h := key ⟨n % 256, Nat.mod_lt _ (by decide)⟩
  have e : UInt8.ofNat (n % 256) = UInt8.ofNat n := by rw [← UInt8.toNat_inj, UInt8.toNat_ofNat', UInt8.toNat_ofNat']; omega
  simp only [e] at h
  exact h

theorem reverse_zero (n : Nat) : reverseBits (UInt8.ofNat n) = 0 ↔ n % 256 = 0 := by
  have key : ∀ x : Fin 256, reverseBits (UInt8.ofNat x.val) = 0 ↔ x.val = 0 := by decide +kernel
  have h := key ⟨n % 256, Nat.mod_lt _ (by decide)⟩
  have e : UInt8.ofNat (n % 256) = UInt8.ofNat n := by rw [← UInt8.toNat_inj, UInt8.toNat_ofNat', UInt8.toNat_ofNat']; omega
  simp only [e] at h
  exact h

theorem usage_two (a b l : Nat) (hl : 9 ≤ l) : usageOf ⟨[reverseBits (UInt8.ofNat a), reverseBits (UInt8.ofNat b)], l⟩ = a % 256 + 256 * (b % 2) := by
  have key : ∀ (x : Fin 256) (y : Fin 2), usageOf ⟨[reverseBits (UInt8.ofNat x.val), reverseBits (UInt8.ofNat y.val)], 9⟩ = x.val + 256 * y.val := by decide +kernel
  have h := key ⟨a % 256, Nat.mod_lt _ (by decide)⟩ ⟨b % 2, Nat.mod_lt _ (by decide)⟩
  have e : UInt8.ofNat (a % 256) = UInt8.ofNat a := by rw [← UInt8.toNat_inj, UInt8.toNat_ofNat', UInt8.toNat_ofNat']; omega
  simp only [e] at h
  rw [← h]
  refine usage_congr (fun i hi => ?_)
  have top : (reverseBits (UInt8.ofNat b)).toNat / 128 % 2 = (reverseBits (UInt8.ofNat (b % 2))).toNat / 128 % 2 := by
    have k2 : ∀ x : Fin 256, (reverseBits (UInt8.ofNat x.val)).toNat / 128 % 2 = (reverseBits (UInt8.ofNat (x.val % 2))).toNat / 128 % 2 := by decide +kernel
    have h := k2 ⟨b % 256, Nat.mod_lt _ (by decide)⟩
    have e : UInt8.ofNat (b % 256) = UInt8.ofNat b := by rw [← UInt8.toNat_inj, UInt8.toNat_ofNat', UInt8.toNat_ofNat']; omega
    have e2 : b % 256 % 2 = b % 2 := by omega
    simp only [e, e2] at h
    exact h
  rw [bitAt, bitAt]
  rw [if_neg (by show ¬ i ≥ l; omega), if_neg (by show ¬ i ≥ 9; omega)]
  by_cases h8 : i = 8
  · subst h8; exact top
  · have : i / 8 = 0 := by omega
    simp only [this]
    rfl

/-- The key usage that is read. -/
theorem usage_read {env : AsnEnv} {u : Nat} {b : Bytes}
    (h : marshal (stdMar env) .bits (⟨usageBytes u, asn1BitLength (usageBytes u)⟩ : BitStr) = .ok b) (hl : b.length < 2 ^ 31) :
    ∃ w, unmAll env .bits b = .ok (some w) ∧ usageOf w = u % 512 := by
  have leaf : ∀ v : BitStr, LeafFits env (stdMar env) {} .bits v → Fits env (stdMar env) .bits {} v [] := fun v hv =>
    Mar.fits_leaf_intro (t := .bits) (by simp [Mar.IsLeaf]) (Mar.omits_plain .bits v) Mar.symmetric_plain hv
  have same : ∀ v w : BitStr, Same true .bits false v w → w = v := fun v w hs => by
    have : @Eq Ty.bits.interp v w := by simpa [Same] using hs
    exact this.symm
  by_cases h1 : reverseBits (UInt8.ofNat (u / 256)) ≠ 0
  · have hb : usageBytes u = [reverseBits (UInt8.ofNat u)] ++ [reverseBits (UInt8.ofNat (u / 256))] := by
      rw [usageBytes, if_pos h1]; rfl
    rw [hb] at h
    obtain ⟨w, hw, hs⟩ := read_written h hl (leaf _ (bits_fit h1))
    refine ⟨w, hw, ?_⟩
    rw [same _ _ hs]
    obtain ⟨k, hk, e, _⟩ := bitLength_snoc [reverseBits (UInt8.ofNat u)] _ h1
    refine (usage_two u (u / 256) _ ?_).trans ?_
    · rw [e]; simp; omega
    · omega
  · have hz := (reverse_zero _).1 (Classical.not_not.1 h1)
    have hb : usageBytes u = [] ++ [reverseBits (UInt8.ofNat u)] := by
      rw [usageBytes, if_neg h1]; rfl
    rw [hb] at h
    by_cases h0 : reverseBits (UInt8.ofNat u) ≠ 0
    · obtain ⟨w, hw, hs⟩ := read_written h hl (leaf _ (bits_fit h0))
      refine ⟨w, hw, ?_⟩
      rw [same _ _ hs]
      refine (usage_one u).trans ?_
      omega
    · have h0 := Classical.not_not.1 h0
      have hz0 := (reverse_zero _).1 h0
      rw [h0] at h
      have h : marshal (stdMar env) .bits (⟨[0], 8⟩ : BitStr) = .ok b := by rw [← h]; rfl
      obtain ⟨w, hw, hs⟩ := read_written h hl (leaf _ (by
        show BitContents ⟨[0], 8⟩ (UInt8.ofNat (8 * 1 - 8) :: [0])
        exact ⟨0, rfl, by decide, by decide, by decide⟩))
      refine ⟨w, hw, ?_⟩
      rw [same _ _ hs]
      have : usageOf ⟨[0], 8⟩ = 0 := by decide +kernel
      refine this.trans ?_
      omega

/-! ## Object identifiers -/

theorem listRel_same {α : Type} {R : α → α → Prop} (hR : ∀ a b, R a b → b = a) : ∀ {l m : List α}, ListRel R l m → m = l
  | _, _, .nil => rfl
  | _, _, .cons h t => by rw [hR _ _ h, listRel_same hR t]

theorem known_oid {n : Nat} {oid : List Nat} (h : oidFromExtKeyUsage n = some oid) : ValidOid oid ∧ keyPurposes.idxOf? oid = some n := by
  by_cases hn : n < 12
  · have key : ∀ k : Fin 12, (oidFromExtKeyUsage k.val).bind (fun o => keyPurposes.idxOf? o) = some k.val := by decide +kernel
    have k1 := key ⟨n, hn⟩
    simp only at k1
    rw [h] at k1
    refine ⟨?_, k1⟩
    have hm : oid ∈ keyPurposes := by
      refine Classical.byContradiction (fun hn => ?_)
      have : keyPurposes.idxOf? oid = none := List.idxOf?_eq_none_iff.2 hn
      change (keyPurposes.idxOf? oid) = some n at k1
      rw [this] at k1; cases k1
    have hv : ∀ o ∈ keyPurposes, ValidOid o := by
      intro o ho
      simp only [keyPurposes, List.mem_cons, List.not_mem_nil, or_false] at ho
      rcases ho with rfl | rfl | rfl | rfl | rfl | rfl | rfl | rfl | rfl | rfl | rfl | rfl <;>
        exact ⟨by decide, by decide, by decide, by decide⟩
    exact hv _ hm
  · have : oidFromExtKeyUsage n = none := by
      have hf : extKeyUsageTable.find? (fun p => decide (p.2 = n)) = none := by
        rw [List.find?_eq_none]
        intro p hp
        simp only [extKeyUsageTable, List.mem_cons, List.not_mem_nil, or_false] at hp
        rcases hp with rfl | rfl | rfl | rfl | rfl | rfl | rfl | rfl | rfl | rfl | rfl | rfl <;> (simp; omega)
      rw [oidFromExtKeyUsage, hf]; rfl
    rw [this] at h; cases h

theorem purpose_oids : ∀ {us : List Nat} {oids : List (List Nat)}, purposeOids us = some oids →
    (∀ o ∈ oids, ValidOid o ∧ o ∈ keyPurposes) ∧ oids.filterMap (fun o => keyPurposes.idxOf? o) = us
  | [], oids, h => by cases h; simp
  | u :: us, oids, h => by
    rw [purposeOids] at h
    cases ho : oidFromExtKeyUsage u with
    | none => rw [ho] at h; cases h
    | some oid =>
      rw [ho] at h
      simp only at h
      cases hr : purposeOids us with
      | none => rw [hr] at h; cases h
      | some r =>
        rw [hr] at h
        simp only at h
        cases h
        obtain ⟨h1, h2⟩ := known_oid ho
        obtain ⟨h3, h4⟩ := purpose_oids hr
        have hm : oid ∈ keyPurposes := by
          refine Classical.byContradiction (fun hn => ?_)
          rw [List.idxOf?_eq_none_iff.2 hn] at h2; cases h2
        refine ⟨fun o ho => ?_, ?_⟩
        · rcases List.mem_cons.1 ho with rfl | ho
          · exact ⟨h1, hm⟩
          · exact h3 o ho
        · rw [List.filterMap_cons, h2]; simp only; rw [h4]

theorem oids_read {env : AsnEnv} {l : List (List Nat)} {b : Bytes} (hv : ∀ o ∈ l, ValidOid o)
    (h : marshal (stdMar env) (.slice false .oid) l = .ok b) (hl : b.length < 2 ^ 31) : unmAll env (.slice false .oid) b = .ok (some l) := by
  have hf : Fits env (stdMar env) (.slice false .oid) {} l [] := by
    refine Mar.fits_slice_intro (e := .oid) l (Mar.omits_plain _ _) Mar.symmetric_plain (by simp) (fun x hx r => ?_)
    exact Mar.fits_leaf_intro (t := .oid) (by simp [Mar.IsLeaf]) (Mar.omits_plain .oid x) Mar.symmetric_plain (hv x hx)
  obtain ⟨w, hw, hs⟩ := read_written h hl hf
  rw [hw]
  have hr := same_slice (e := .oid) l w hs
  have := listRel_same (R := Same true .oid false) (fun a b hab => same_leaf (t := .oid) (by simp [Mar.IsLeaf]) hab) hr
  rw [this]

theorem listRel_of_mem {α β : Type} {R S : α → β → Prop} (h : ∀ a b, R a b → S a b) : ∀ {l : List α} {m : List β}, ListRel R l m → ListRel S l m
  | _, _, .nil => .nil
  | _, _, .cons a t => .cons (h _ _ a) (listRel_of_mem h t)

/-! ## Basic constraints -/

theorem optBool : parseMP (b!"optional") = { optional := true } := by decide
theorem optMinusOne : parseMP (b!"optional,default:-1") = { optional := true, dflt := some (-1) } := by decide

theorem basic_fits {env : AsnEnv} (ca : Bool) {n : Int} (hn : IsInt64 n) : Fits env (stdMar env) basicConstraintsTy {} (([] : Bytes), ca, n, ()) [] := by
  refine Mar.fits_struct_intro _ (Mar.omits_plain _ _) Mar.symmetric_plain (.inl rfl) (Mar.fitsAll_cons _ (fun rest hr => ?_)
    (Mar.fitsAll_cons _ (fun rest hr => ?_) (Mar.fitsAll_nil _)))
  · cases ca with
    | true =>
      exact Mar.fits_leaf_intro (t := .bool) (by simp [Mar.IsLeaf]) (by rfl) ⟨by decide, by decide⟩ trivial
    | false =>
      refine Mar.fits_leaf_absent (t := .bool) (by simp [Mar.IsLeaf]) (by rfl) ?_
      by_cases h1 : n = -1
      · subst h1
        cases hr
        exact .empty (by rfl)
      · have ho : Ty.omits (parseMP (b!"optional,default:-1")) .int n = false := by
          rw [optMinusOne]
          show (false && _ || (true && eqv (α := Int) n (-1))) = false
          simp [eqv, h1]
        have hm : makeFields (stdMar env) (.cons (b!"optional,default:-1") .int .nil) ((n, ()) : Int × Unit) = .ok (tlv 0 false 2 (encodeInt64 n) ++ []) := by
          refine (Mar.makeFields_cons _).trans ?_
          have hk : makeField (stdMar env) .int (parseMP (b!"optional,default:-1")) n = .ok (tlv 0 false 2 (encodeInt64 n)) := by
            refine (Mar.make_leaf (t := .int) (.inl (by simp [Mar.IsLeaf])) _).trans ?_
            show fieldTagged _ (Ty.omits _ .int n) 2 false (.ok 2) _ = _
            rw [ho]; rfl
          refine (congrArg (fun o => o >>= _) hk).trans ?_
          refine (congrArg (fun o => o >>= fun bs => Except.ok (tlv 0 false 2 (encodeInt64 n) ++ bs)) (Mar.makeFields_nil (menv := stdMar env) ())).trans ?_
          rfl
        have hr := (Except.ok.inj (hm.symm.trans hr)).symm
        rw [hr, List.append_nil, tlv]
        have hlen := (encodeInt64_spec hn).2.1
        exact .plain (by rfl) (by rfl) (Mar.header_der (cls := 0) (tag := 2) (con := false) (by decide) (by decide) (by decide) (n := (encodeInt64 n).length) (by omega))
          (by rintro ⟨_, h⟩; revert h; simp [optBool, Ty.HasTag])
  · by_cases h1 : n = -1
    · subst h1
      cases hr
      exact Mar.fits_leaf_absent (t := .int) (by simp [Mar.IsLeaf]) (by rfl) (.empty (by rfl))
    · refine Mar.fits_leaf_intro (t := .int) (by simp [Mar.IsLeaf]) ?_ ⟨by decide, by decide⟩ hn
      rw [optMinusOne]
      show (false && _ || (true && eqv (α := Int) n (-1))) = false
      simp [eqv, h1]

theorem basic_read {env : AsnEnv} {ca : Bool} {n : Int} {b : Bytes} (hn : IsInt64 n)
    (h : marshal (stdMar env) basicConstraintsTy (([] : Bytes), ca, n, ()) = .ok b) (hl : b.length < 2 ^ 31) :
    ∃ c0 : Bytes, unmAll env basicConstraintsTy b = .ok (some ((c0, ca, n, ()) : Bytes × Bool × Int × Unit)) := by
  obtain ⟨w, hw, hs⟩ := read_written h hl (basic_fits ca hn)
  obtain ⟨c0, ca', n', ⟨⟩⟩ := w
  have h1 := same_cons _ _ (same_struct _ _ hs)
  have h2 := same_cons _ _ h1.2
  have e1 := same_leaf (t := .bool) (by simp [Mar.IsLeaf]) h1.1
  have e2 := same_leaf (t := .int) (by simp [Mar.IsLeaf]) h2.1
  exact ⟨c0, by rw [hw]; rw [show ca' = ca from e1, show n' = n from e2]; rfl⟩

/-! ## Key identifiers, policies, access -/

theorem octets_read {env : AsnEnv} {k b : Bytes} (h : marshal (stdMar env) .octets k = .ok b) (hl : b.length < 2 ^ 31) : unmAll env .octets b = .ok (some k) := by
  obtain ⟨w, hw, hs⟩ := read_written h hl (Mar.fits_leaf_intro (t := .octets) (by simp [Mar.IsLeaf]) (Mar.omits_plain .octets k) Mar.symmetric_plain trivial)
  have e := same_leaf (t := .octets) (by simp [Mar.IsLeaf]) hs
  rw [hw, e]

theorem authority_read {env : AsnEnv} {k b : Bytes} (hk : k ≠ []) (h : marshal (stdMar env) authKeyIdTy (([] : Bytes), k, ()) = .ok b) (hl : b.length < 2 ^ 31) :
    ∃ c0 : Bytes, unmAll env authKeyIdTy b = .ok (some ((c0, k, ()) : Bytes × Bytes × Unit)) := by
  have hf : Fits env (stdMar env) authKeyIdTy {} (([] : Bytes), k, ()) [] := by
    refine Mar.fits_struct_intro _ (Mar.omits_plain _ _) Mar.symmetric_plain (.inl rfl) (Mar.fitsAll_cons _ (fun rest _ => ?_) (Mar.fitsAll_nil _))
    refine Mar.fits_leaf_intro (t := .octets) (by simp [Mar.IsLeaf]) ?_ ⟨by decide, by decide⟩ trivial
    have : parseMP (b!"optional,tag:0") = { optional := true, tag := some 0 } := by decide
    rw [this]
    show (false && _ || (true && eqv (α := Bytes) k [])) = false
    simp [eqv, hk]
  obtain ⟨w, hw, hs⟩ := read_written h hl hf
  obtain ⟨c0, k', ⟨⟩⟩ := w
  have h1 := same_cons _ _ (same_struct _ _ hs)
  have e1 := same_leaf (t := .octets) (by simp [Mar.IsLeaf]) h1.1
  exact ⟨c0, by rw [hw]; rw [show k' = k from e1]; rfl⟩

theorem policies_read {env : AsnEnv} {l : List (List Nat)} {b : Bytes} (hv : ∀ o ∈ l, ValidOid o)
    (h : marshal (stdMar env) (.slice false policyTy) (l.map (fun p => (([] : Bytes), p, ()))) = .ok b) (hl : b.length < 2 ^ 31) :
    ∃ ps : List (Bytes × List Nat × Unit), unmAll env (.slice false policyTy) b = .ok (some ps) ∧ ps.map (fun p => p.2.1) = l := by
  have hf : Fits env (stdMar env) (.slice false policyTy) {} (l.map (fun p => (([] : Bytes), p, ()))) [] := by
    refine Mar.fits_slice_intro (e := policyTy) _ (Mar.omits_plain _ _) Mar.symmetric_plain (by simp [policyTy]) (fun x hx r => ?_)
    obtain ⟨o, ho, rfl⟩ := List.mem_map.1 hx
    refine Mar.fits_struct_intro _ (Mar.omits_plain _ _) Mar.symmetric_plain (.inl rfl) (Mar.fitsAll_cons _ (fun rest _ => ?_) (Mar.fitsAll_nil _))
    exact Mar.fits_leaf_intro (t := .oid) (by simp [Mar.IsLeaf]) (Mar.omits_required rfl rfl _ _) ⟨by decide, by decide⟩ (hv o ho)
  obtain ⟨w, hw, hs⟩ := read_written h hl hf
  refine ⟨w, hw, ?_⟩
  have hr : ListRel (fun (v w : Bytes × List Nat × Unit) => w.2.1 = v.2.1) (l.map (fun p => (([] : Bytes), p, ()))) w :=
    listRel_of_mem (fun v w a => same_leaf (t := .oid) (by simp [Mar.IsLeaf]) (same_cons _ _ (same_struct _ _ a)).1) (same_slice (e := policyTy) _ w hs)
  have key : ∀ {v w : List (Bytes × List Nat × Unit)}, ListRel (fun (v w : Bytes × List Nat × Unit) => w.2.1 = v.2.1) v w → w.map (fun p => p.2.1) = v.map (fun p => p.2.1) := by
    intro v w hr
    induction hr with
    | nil => rfl
    | cons a t ih => rw [List.map_cons, List.map_cons, ih, a]
  refine (key hr).trans ?_
  rw [List.map_map]
  exact List.map_id l

theorem ctx_fits {fp : FP} (ht : fp.explicit = false) (hg : fp.tag = none) {tag : Nat} (h : tag < 2 ^ 31) (b rest : Bytes) : RawFits fp (ctxRaw tag b) rest :=
  ⟨.inl ⟨rfl, show 2 < 4 by decide, h⟩, fun _ n hn => by rw [hg] at hn; (cases hn), fun he => by rw [ht] at he; cases he⟩

theorem access_read {env : AsnEnv} {t : ExtFields} {b : Bytes} (h : marshal (stdMar env) (.slice false aiaTy) (accessValues t) = .ok b) (hl : b.length < 2 ^ 31) :
    ∃ l : List (Bytes × List Nat × RawVal × Unit), unmAll env (.slice false aiaTy) b = .ok (some l) ∧
      ListRel (fun (v w : Bytes × List Nat × RawVal × Unit) => w.2.1 = v.2.1 ∧ SameRaw v.2.2.1 w.2.2.1) (accessValues t) l := by
  have hm : ∀ x ∈ accessValues t, ∃ m n, x = (([] : Bytes), m, ctxRaw 6 n, ()) ∧ ValidOid m := by
    intro x hx
    rw [accessValues, List.mem_append, List.mem_map, List.mem_map] at hx
    rcases hx with ⟨n, _, rfl⟩ | ⟨n, _, rfl⟩
    · exact ⟨_, n, rfl, by decide, by decide, by decide, by decide⟩
    · exact ⟨_, n, rfl, by decide, by decide, by decide, by decide⟩
  have hf : Fits env (stdMar env) (.slice false aiaTy) {} (accessValues t) [] := by
    refine Mar.fits_slice_intro (e := aiaTy) _ (Mar.omits_plain _ _) Mar.symmetric_plain (by simp [aiaTy]) (fun x hx r => ?_)
    obtain ⟨m, n, rfl, hv⟩ := hm x hx
    refine Mar.fits_struct_intro _ (Mar.omits_plain _ _) Mar.symmetric_plain (.inl rfl) (Mar.fitsAll_cons _ (fun rest _ => ?_)
      (Mar.fitsAll_cons _ (fun rest _ => ?_) (Mar.fitsAll_nil _)))
    · exact Mar.fits_leaf_intro (t := .oid) (by simp [Mar.IsLeaf]) (Mar.omits_required rfl rfl _ _) ⟨by decide, by decide⟩ hv
    · exact Mar.fits_raw_intro _ (Mar.omits_required rfl rfl _ _) (ctx_fits rfl rfl (by decide) _ _)
  obtain ⟨w, hw, hs⟩ := read_written h hl hf
  refine ⟨w, hw, ?_⟩
  refine listRel_of_mem (fun v w a => ?_) (same_slice (e := aiaTy) _ w hs)
  have h1 := same_cons _ _ (same_struct _ _ a)
  have h2 := same_cons _ _ h1.2
  exact ⟨same_leaf (t := .oid) (by simp [Mar.IsLeaf]) h1.1, same_raw h2.1⟩

theorem access_fields {t : ExtFields} {l : List (Bytes × List Nat × RawVal × Unit)}
    (h : ListRel (fun (v w : Bytes × List Nat × RawVal × Unit) => w.2.1 = v.2.1 ∧ SameRaw v.2.2.1 w.2.2.1) (accessValues t) l) (s : ExtFields) :
    addAccess s l = { s with ocspServer := s.ocspServer ++ t.ocspServer, issuingUrl := s.issuingUrl ++ t.issuingUrl } := by
  have key : ∀ {v w : List (Bytes × List Nat × RawVal × Unit)},
      ListRel (fun (v w : Bytes × List Nat × RawVal × Unit) => w.2.1 = v.2.1 ∧ SameRaw v.2.2.1 w.2.2.1) v w → ∀ s, addAccess s w = addAccess s v := by
    intro v w hr
    induction hr with
    | nil => intro s; rfl
    | cons a t ih =>
      intro s
      obtain ⟨a1, a2, a3, a4, a5⟩ := a
      rw [addAccess, addAccess, a1, a3, a5, ih, ih, ih]
  rw [key h, addAccess_eq, accessValues]
  have f1 : ∀ (m : List Nat) (l : List Bytes) (p : List Nat), ((l.map (fun n => (([] : Bytes), m, ctxRaw 6 n, ()))).filter (fun a => a.2.1 = p ∧ a.2.2.1.tag = 6)).map (fun a => a.2.2.1.bytes) =
      if m = p then l else [] := by
    intro m l p
    induction l with
    | nil => simp
    | cons x l ih =>
      by_cases hp : m = p
      · rw [if_pos hp] at ih ⊢
        rw [List.map_cons, List.filter_cons_of_pos (by simp [hp, ctxRaw]), List.map_cons, ih]; rfl
      · rw [if_neg hp] at ih ⊢
        rw [List.map_cons, List.filter_cons_of_neg (by simp [hp]), ih]
  rw [List.filter_append, List.filter_append, List.map_append, List.map_append, f1, f1, f1, f1]
  simp

end Cre
end Apk
