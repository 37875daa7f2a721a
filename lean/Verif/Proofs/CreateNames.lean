import Verif.Proofs.Create
/-! # Reading back names, name constraints and distribution points -/
namespace Apk
namespace Cre

/-! ## Alternative names -/

theorem raws_flatten (env : AsnEnv) : ∀ l : List RawVal, makeElems (makeField (stdMar env) .rawValue {}) l = .ok (l.map rawBytes)
  | [] => rfl
  | v :: vs => by
    show (makeField (stdMar env) .rawValue {} v >>= fun b => makeElems (makeField (stdMar env) .rawValue {}) vs >>= fun bs => Except.ok (b :: bs)) = _
    refine (congrArg (fun o => o >>= _) (Mar.make_raw (menv := stdMar env) v (Mar.omits_plain .rawValue v))).trans ?_
    exact (congrArg (fun o => o >>= fun bs => Except.ok (rawBytes v :: bs)) (raws_flatten env vs)).trans rfl

theorem raws_written {env : AsnEnv} {l : List RawVal} {b : Bytes} (h : marshal (stdMar env) (.slice false .rawValue) l = .ok b) :
    b = tlv 0 true 16 (l.map rawBytes).flatten := by
  have h : makeField (stdMar env) (.slice false .rawValue) (parseMP []) l = .ok b := h
  rw [show parseMP [] = {} from by decide] at h
  have h2 := (Mar.make_slice (menv := stdMar env) (s := false) (e := .rawValue) (mp := {}) l).symm.trans h
  rw [raws_flatten] at h2
  exact (Except.ok.inj h2).symm

theorem ctx_elem {tag : Nat} (ht : tag < 31) {c : Bytes} (hl : c.length < 2 ^ 31) : Elem 2 tag false c (rawBytes (ctxRaw tag c)) := by
  have : rawBytes (ctxRaw tag c) = tlv 2 false tag c := by
    rw [rawBytes, if_neg (by simp [ctxRaw])]; rfl
  rw [this]
  exact tlv_elem (by decide) (by omega) hl

theorem ctx_le (tag : Nat) (c : Bytes) : c.length ≤ (rawBytes (ctxRaw tag c)).length := by
  rw [rawBytes, if_neg (by simp [ctxRaw]), List.length_append]
  exact Nat.le_add_left _ _

theorem names_are {dns mail ip : List Bytes} (hip : ∀ i ∈ ip, i.length = 4 ∨ i.length = 16) :
    (((dns.map (ctxRaw 2) ++ mail.map (ctxRaw 1) ++ ip.map (ctxRaw 7)).map rawBytes).flatten).length < 2 ^ 31 →
    AltNamesAre dns mail ip ((dns.map (ctxRaw 2) ++ mail.map (ctxRaw 1) ++ ip.map (ctxRaw 7)).map rawBytes).flatten := by
  have one : ∀ {tag : Nat} {c r : Bytes}, tag < 31 → (rawBytes (ctxRaw tag c) ++ r).length < 2 ^ 31 → Elem 2 tag false c (rawBytes (ctxRaw tag c)) ∧ r.length < 2 ^ 31 := by
    intro tag c r ht hl
    rw [List.length_append] at hl
    have := ctx_le tag c
    exact ⟨ctx_elem ht (by omega), by omega⟩
  induction dns with
  | cons d dns ih =>
    intro hl
    simp only [List.map_cons, List.cons_append, List.flatten_cons] at hl ih ⊢
    obtain ⟨he, hr⟩ := one (by decide) hl
    exact .dns he (ih hr)
  | nil =>
    induction mail with
    | cons m mail ih =>
      intro hl
      simp only [List.map_cons, List.map_nil, List.nil_append, List.cons_append, List.flatten_cons] at hl ih ⊢
      obtain ⟨he, hr⟩ := one (by decide) hl
      exact .mail he (ih hr)
    | nil =>
      induction ip with
      | nil => intro _; exact .nil
      | cons i ip ih =>
        intro hl
        simp only [List.map_cons, List.map_nil, List.nil_append, List.flatten_cons] at hl ih ⊢
        obtain ⟨he, hr⟩ := one (by decide) hl
        exact .ip he (hip i (List.mem_cons_self ..)) (ih (fun j hj => hip j (List.mem_cons_of_mem _ hj)) hr)

theorem sanNames_of {env : AsnEnv} {dns mail ip : List Bytes} {b : Bytes} (h : AltNamesAre dns mail ip b) : ∀ (fuel : Nat) (d m i : List Bytes), b.length ≤ fuel →
    sanNames env fuel b (d, m, i) = .ok (some (d ++ dns, m ++ mail, i ++ ip)) := by
  have step : ∀ {cls tag : Nat} {con : Bool} {c e r : Bytes}, Elem cls tag con c e → ∀ (fuel : Nat) (d m i : List Bytes), (e ++ r).length ≤ fuel →
      ∃ f, fuel = f + 1 ∧ r.length ≤ f ∧ sanNames env fuel (e ++ r) (d, m, i) = (if tag = 1 then sanNames env f r (d, m ++ [c], i)
        else if tag = 2 then sanNames env f r (d ++ [c], m, i)
        else if tag = 7 then (if c.length = 4 ∨ c.length = 16 then sanNames env f r (d, m, i ++ [c]) else .ok none) else sanNames env f r (d, m, i)) := by
    intro cls tag con c e r he fuel d m i hl
    have hne := he.ne
    rw [List.length_append] at hl
    have : 0 < e.length := List.length_pos_iff.2 hne
    cases fuel with
    | zero => omega
    | succ f =>
      refine ⟨f, rfl, by omega, ?_⟩
      rw [sanNames, if_neg (by simp [hne]), rawVal_of_elem he]
  induction h with
  | nil => intro fuel d m i _; cases fuel <;> simp [sanNames]
  | mail he _ ih =>
    intro fuel d m i hl
    obtain ⟨f, rfl, hf, h⟩ := step he fuel d m i hl
    rw [h, if_pos rfl, ih f _ _ _ hf]
    simp
  | dns he _ ih =>
    intro fuel d m i hl
    obtain ⟨f, rfl, hf, h⟩ := step he fuel d m i hl
    rw [h, if_neg (by decide), if_pos rfl, ih f _ _ _ hf]
    simp
  | ip he hc _ ih =>
    intro fuel d m i hl
    obtain ⟨f, rfl, hf, h⟩ := step he fuel d m i hl
    rw [h, if_neg (by decide), if_neg (by decide), if_pos rfl, if_pos hc, ih f _ _ _ hf]
    simp
  | other h1 h2 h7 he _ ih =>
    intro fuel d m i hl
    obtain ⟨f, rfl, hf, h⟩ := step he fuel d m i hl
    rw [h, if_neg h1, if_neg h2, if_neg h7, ih f _ _ _ hf]

theorem ip_short (ip : Bytes) (h : ip.length = 4 ∨ ip.length = 16) : ipBytes ip = shortAddress ip ∧ ((ipBytes ip).length = 4 ∨ (ipBytes ip).length = 16) := by
  unfold ipBytes ipTo4 shortAddress
  have hp : ip.length = 16 → (ip.take 12 = [0, 0, 0, 0, 0, 0, 0, 0, 0, 0, 255, 255] ↔ [0, 0, 0, 0, 0, 0, 0, 0, 0, 0, 255, 255] <+: ip) := by
    intro _
    constructor
    · intro e; rw [← e]; exact List.take_prefix ..
    · rintro ⟨t, rfl⟩; rfl
  rcases h with h | h
  · rw [if_pos h, if_neg (by omega)]
    exact ⟨rfl, .inl h⟩
  · rw [if_neg (by omega)]
    by_cases hm : [0, 0, 0, 0, 0, 0, 0, 0, 0, 0, 255, 255] <+: ip
    · rw [if_pos ⟨h, (hp h).2 hm⟩, if_pos ⟨h, hm⟩]
      exact ⟨rfl, .inl (by simp [h])⟩
    · rw [if_neg (fun x => hm ((hp h).1 x.2)), if_neg (fun x => hm x.2)]
      exact ⟨rfl, .inr h⟩

theorem san_read {env : AsnEnv} {dns mail ip : List Bytes} {b : Bytes} (hip : ∀ i ∈ ip, i.length = 4 ∨ i.length = 16)
    (h : marshalSANs env dns mail ip = .ok b) (hl : b.length < 2 ^ 31) : sanFields env b = .ok (some (dns, mail, ip.map shortAddress)) := by
  have hb := raws_written h
  have hm : ip.map (fun i => ctxRaw 7 (ipBytes i)) = (ip.map shortAddress).map (ctxRaw 7) := by
    rw [List.map_map]
    exact List.map_congr_left (fun i hi => by rw [(ip_short i (hip i hi)).1]; rfl)
  rw [hm] at hb
  have hip' : ∀ i ∈ ip.map shortAddress, i.length = 4 ∨ i.length = 16 := by
    intro i hi
    obtain ⟨j, hj, rfl⟩ := List.mem_map.1 hi
    have := ip_short j (hip j hj)
    rw [← this.1]; exact this.2
  have hlen : ((dns.map (ctxRaw 2) ++ mail.map (ctxRaw 1) ++ (ip.map shortAddress).map (ctxRaw 7)).map rawBytes).flatten.length ≤ b.length := by
    rw [hb, tlv, List.length_append]
    exact Nat.le_add_left _ _
  have hn := names_are (dns := dns) (mail := mail) hip' (by omega)
  generalize ((dns.map (ctxRaw 2) ++ mail.map (ctxRaw 1) ++ (ip.map shortAddress).map (ctxRaw 7)).map rawBytes).flatten = content at hb hlen hn
  have he : Elem 0 16 true content b := by rw [hb]; exact tlv_elem (by decide) (by decide) (by omega)
  have hr : unmAll env .rawValue b = .ok (some (⟨0, 16, true, content, b⟩ : RawVal)) := by
    have := rawVal_of_elem he env []
    rw [List.append_nil] at this
    exact unmAll_iff.2 (unmFirst_iff.1 this)
  rw [sanFields, hr]
  have := sanNames_of (env := env) hn content.length [] [] [] (Nat.le_refl _)
  exact this

/-! ## Name constraints -/

theorem tag2 : parseMP (b!"tag:2,optional,ia5") = { optional := true, tag := some 2, stringType := 22 } := by decide
theorem tag0 : parseMP (b!"tag:0") = { tag := some 0 } := by decide
theorem tag1 : parseMP (b!"tag:1") = { tag := some 1 } := by decide

theorem subtree_fits {env : AsnEnv} (n r : Bytes) : Fits env (stdMar env) subtreeTy {} (([] : Bytes), n, ()) r := by
  refine Mar.fits_struct_intro _ (Mar.omits_plain _ _) Mar.symmetric_plain (.inl rfl) (Mar.fitsAll_cons _ (fun rest hr => ?_) (Mar.fitsAll_nil _))
  by_cases h : n = []
  · subst h
    cases hr
    exact Mar.fits_leaf_absent (t := .str) (by simp [Mar.IsLeaf]) (by rfl) (.empty (by rfl))
  · refine Mar.fits_leaf_intro (t := .str) (by simp [Mar.IsLeaf]) ?_ ⟨by decide, by decide⟩ ⟨fun h => absurd h (by decide), rfl, by decide⟩
    rw [tag2]
    show (false && _ || (true && eqv (α := Bytes) n [])) = false
    simp [eqv, h]

/-- A field that must be there is read the same if it may be left out. -/
theorem slice_optional {env : AsnEnv} {s : Bool} {e : Ty} {fp : FP} (v : (Ty.slice s e).interp) {b rest : Bytes} (h : Reads env (.slice s e) fp v b rest)
    (ho : fp.optional = false) (hx : fp.explicit = false) : Reads env (.slice s e) { fp with optional := true } v b rest := by
  rw [Reads] at h
  rcases h with ⟨tl, inner, hl, h1, h2⟩ | ⟨h, _⟩
  · refine Mar.reads_slice_of v (tl := tl) (inner := inner) ?_ h1 h2
    cases hl with
    | plain a b c d => exact .plain a b c d
    | explicit a => rw [hx] at a; cases a
    | explicitRaw a => rw [hx] at a; cases a
  · exact absurd (absent_optional h) (by simp [ho])

theorem constraints_type {env : AsnEnv} (v : nameConstraintsOutTy.interp) {b : Bytes} (h : Reads env nameConstraintsOutTy {} v b []) :
    Reads env nameConstraintsTy {} v b [] := by
  have h0 := reads_struct_noraw h
  obtain ⟨tl, inner, hl, hr⟩ := reads_struct_located h
  refine Mar.reads_struct_of (raw := false) (fs := .cons (b!"optional,tag:0") (.slice false subtreeTy) (.cons (b!"optional,tag:1") (.slice false subtreeTy) .nil)) v
    (tl := tl) (inner := inner) ?_ ?_ (by rw [h0]; rfl)
  · cases hl with
    | plain a b c d =>
      refine .plain a b ⟨.inr ?_, .inr ?_⟩ d
      · rcases c.1 with h | h
        · cases h
        · exact h
      · rcases c.2 with h | h
        · cases h
        · exact h
    | explicit a => cases a
    | explicitRaw a => cases a
  · obtain ⟨v0, v1, v2, ⟨⟩⟩ := v
    obtain ⟨r1, h1, hr⟩ := readsAll_cons.1 hr
    obtain ⟨r2, h2, hr⟩ := readsAll_cons.1 hr
    refine readsAll_cons.2 ⟨r1, ?_, readsAll_cons.2 ⟨r2, ?_, hr⟩⟩
    · exact slice_optional v1 h1 (by decide) (by decide)
    · exact slice_optional v2 h2 (by decide) (by decide)

theorem constraints_read {env : AsnEnv} {p e : List Bytes} {b : Bytes}
    (h : marshal (stdMar env) nameConstraintsOutTy (([] : Bytes), p.map (fun n => (([] : Bytes), n, ())), e.map (fun n => (([] : Bytes), n, ())), ()) = .ok b)
    (hl : b.length < 2 ^ 31) :
    ∃ (c0 : Bytes) (ps es : List (Bytes × Bytes × Unit)), unmAll env nameConstraintsTy b = .ok (some ((c0, ps, es, ()) : Bytes × List (Bytes × Bytes × Unit) × List (Bytes × Bytes × Unit) × Unit)) ∧
      ps.map (fun s => s.2.1) = p ∧ es.map (fun s => s.2.1) = e := by
  have hs : ∀ (l : List Bytes) (mp : MP) (r : Bytes), mp.optional = false → mp.omitEmpty = false → mp.Symmetric →
      Fits env (stdMar env) (.slice false subtreeTy) mp (l.map (fun n => (([] : Bytes), n, ()))) r := by
    intro l mp r h1 h2 h3
    refine Mar.fits_slice_intro (e := subtreeTy) _ (Mar.omits_required h1 h2 _ _) h3 (by simp [subtreeTy]) (fun x hx r => ?_)
    obtain ⟨n, _, rfl⟩ := List.mem_map.1 hx
    exact subtree_fits n r
  have hf : Fits env (stdMar env) nameConstraintsOutTy {} (([] : Bytes), p.map (fun n => (([] : Bytes), n, ())), e.map (fun n => (([] : Bytes), n, ())), ()) [] := by
    refine Mar.fits_struct_intro _ (Mar.omits_plain _ _) Mar.symmetric_plain (.inl rfl) (Mar.fitsAll_cons _ (fun rest _ => ?_)
      (Mar.fitsAll_cons _ (fun rest _ => ?_) (Mar.fitsAll_nil _)))
    · exact hs p _ _ (by decide) (by decide) ⟨by decide, by decide⟩
    · exact hs e _ _ (by decide) (by decide) ⟨by decide, by decide⟩
  obtain ⟨w, hw, hsame⟩ := read_written h hl hf
  obtain ⟨c0, ps, es, ⟨⟩⟩ := w
  have hr := unmAll_iff.2 (constraints_type _ (unmAll_iff.1 hw))
  have h1 := same_cons _ _ (same_struct _ _ hsame)
  have h2 := same_cons _ _ h1.2
  have key : ∀ {v w : List (Bytes × Bytes × Unit)}, ListRel (fun (v w : Bytes × Bytes × Unit) => w.2.1 = v.2.1) v w → w.map (fun p => p.2.1) = v.map (fun p => p.2.1) := by
    intro v w hr
    induction hr with
    | nil => rfl
    | cons a t ih => rw [List.map_cons, List.map_cons, ih, a]
  have conv : ∀ {l : List Bytes} {w : List (Bytes × Bytes × Unit)}, Same true (.slice false subtreeTy) false (l.map (fun n => (([] : Bytes), n, ()))) w →
      w.map (fun s => s.2.1) = l := by
    intro l w hs
    have hr : ListRel (fun (v w : Bytes × Bytes × Unit) => w.2.1 = v.2.1) (l.map (fun p => (([] : Bytes), p, ()))) w :=
      listRel_of_mem (fun v w a => same_leaf (t := .str) (by simp [Mar.IsLeaf]) (same_cons _ _ (same_struct _ _ a)).1) (same_slice (e := subtreeTy) _ w hs)
    refine (key hr).trans ?_
    rw [List.map_map]
    exact List.map_id l
  exact ⟨c0, ps, es, hr, conv h1.1, conv h2.1⟩

/-! ## Distribution points -/

theorem optTag0 : parseMP (b!"optional,tag:0") = { optional := true, tag := some 0 } := by decide

theorem dpName_fits {env : AsnEnv} (n r : Bytes) : Fits env (stdMar env) dpNameTy { optional := true, tag := some 0 } (crlPointOf n).2.1 r := by
  refine Mar.fits_struct_intro _ (by rfl) ⟨by decide, by decide⟩ (.inl rfl) (Mar.fitsAll_cons _ (fun rest hr => ?_) (Mar.fitsAll_cons _ (fun rest hr => ?_) (Mar.fitsAll_nil _)))
  · refine Mar.fits_raw_intro _ (by rfl) ?_
    rw [optTag0]
    exact ⟨.inl ⟨rfl, show 2 < 4 by decide, show 0 < 2 ^ 31 by decide⟩, fun _ n hn => by cases hn; exact ⟨rfl, rfl⟩, fun h => by cases h⟩
  · cases hr
    exact Mar.fits_slice_absent (e := .slice true atavTy) _ (by rfl) (.empty (by rfl))

theorem point_fits {env : AsnEnv} (n r : Bytes) : Fits env (stdMar env) dpTy {} (crlPointOf n) r := by
  refine Mar.fits_struct_intro _ (Mar.omits_plain _ _) Mar.symmetric_plain (.inl rfl) (Mar.fitsAll_cons _ (fun rest hr => ?_)
    (Mar.fitsAll_cons _ (fun rest hr => ?_) (Mar.fitsAll_cons _ (fun rest hr => ?_) (Mar.fitsAll_nil _))))
  · rw [optTag0]; exact dpName_fits n rest
  · have hr : rest = [] := by
      refine (Except.ok.inj (hr.symm.trans ?_))
      rfl
    subst hr
    exact Mar.fits_leaf_absent (t := .bits) (by simp [Mar.IsLeaf]) (by rfl) (.empty (by rfl))
  · cases hr
    rw [Fits, if_pos (by rfl)]
    exact .empty (by rfl)

theorem points_read {env : AsnEnv} {l : List Bytes} {b : Bytes} (h : marshal (stdMar env) (.slice false dpTy) (l.map crlPointOf) = .ok b) (hl : b.length < 2 ^ 31) :
    ∃ ps : List dpTy.interp, unmAll env (.slice false dpTy) b = .ok (some ps) ∧ ListRel (fun n (p : dpTy.interp) => p.2.1.2.1.bytes = rawBytes (ctxRaw 6 n)) l ps := by
  have hf : Fits env (stdMar env) (.slice false dpTy) {} (l.map crlPointOf) [] := by
    refine Mar.fits_slice_intro (e := dpTy) _ (Mar.omits_plain _ _) Mar.symmetric_plain (by simp [dpTy]) (fun x hx r => ?_)
    obtain ⟨n, _, rfl⟩ := List.mem_map.1 hx
    exact point_fits n r
  obtain ⟨w, hw, hs⟩ := read_written h hl hf
  refine ⟨w, hw, ?_⟩
  have hr := same_slice (e := dpTy) _ w hs
  have conv : ∀ {m : List dpTy.interp} {w : List dpTy.interp}, ListRel (Same true dpTy false) m w → ∀ l, m = l.map crlPointOf →
      ListRel (fun n (p : dpTy.interp) => p.2.1.2.1.bytes = rawBytes (ctxRaw 6 n)) l w := by
    intro m w hr
    induction hr with
    | nil => intro l hm; cases l with
      | nil => exact .nil
      | cons _ _ => cases hm
    | cons a t ih => intro l hm; cases l with
      | nil => cases hm
      | cons n l =>
        rw [List.map_cons, List.cons.injEq] at hm
        obtain ⟨hm1, hm2⟩ := hm
        refine .cons ?_ (ih l hm2)
        rw [hm1] at a
        have h1 := same_cons _ _ (same_struct _ _ a)
        have h2 := same_cons _ _ (same_struct _ _ h1.1)
        exact (same_raw h2.1).2.2.2
  exact conv hr l rfl

theorem points_urls {env : AsnEnv} {l : List Bytes} {ps : List dpTy.interp}
    (h : ListRel (fun n (p : dpTy.interp) => p.2.1.2.1.bytes = rawBytes (ctxRaw 6 n)) l ps) : ∀ acc, (∀ n ∈ l, n.length < 2 ^ 31) →
    dpUrls env ps acc = .ok (some (acc ++ l)) := by
  induction h with
  | nil => intro acc _; simp [dpUrls]
  | @cons n p l ps hn hr ih =>
    intro acc hs
    have he := ctx_elem (tag := 6) (by decide) (hs n (List.mem_cons_self ..))
    have hu := rawVal_of_elem he env []
    rw [List.append_nil] at hu
    have h1 : dpUrls env (p :: ps) acc = dpUrls env ps (acc ++ [n]) := by
      refine (dpUrls.eq_def ..).trans ?_
      simp only
      rw [if_neg (by rw [hn]; exact he.ne), hn, hu]
      simp
    refine h1.trans ((ih _ (fun m hm => hs m (List.mem_cons_of_mem _ hm))).trans ?_)
    simp

end Cre
end Apk
