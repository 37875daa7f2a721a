import Verif.Spec.CreateCert
import Verif.Proofs.Create
import Verif.Proofs.P7Sign
import Verif.Props.Create
import Verif.Proofs.CertFull
/-! # Reading back the certificates that `CreateCertificate` writes -/
namespace Apk
namespace Crc
open P7M P7S Mar

/-! ## Structs that keep their encoding -/

theorem struct_fresh {menv : MarEnv} {fs : Fields} (v : fs.interp) {b : Bytes} (h : makeField menv (.struct true fs) {} (([] : Bytes), v) = .ok b) :
    ∃ c, makeFields menv fs v = .ok c ∧ b = tlv 0 true 16 c := by
  rcases fieldTagged_ok ((make_struct (raw := true) (fs := fs) (([] : Bytes), v)).symm.trans h) with ⟨h1, _⟩ | ⟨_, t, t', c, _, _, e1, hset, hc, rfl⟩
  · exact absurd ((omits_plain (.struct true fs) (([] : Bytes), v)).symm.trans h1) (by simp)
  · cases e1
    rcases hset with ⟨h1, _⟩ | ⟨_, rfl⟩
    · cases h1
    · exact ⟨c, hc, rfl⟩

theorem struct_kept {menv : MarEnv} {fs : Fields} (v : fs.interp) {raw b : Bytes} (hr : raw ≠ [])
    (h : makeField menv (.struct true fs) {} (raw, v) = .ok b) : b = tlv 0 true 16 (stripHeader raw) := by
  rcases fieldTagged_ok ((make_struct (raw := true) (fs := fs) (raw, v)).symm.trans h) with ⟨h1, _⟩ | ⟨_, t, t', c, _, _, e1, hset, hc, rfl⟩
  · exact absurd ((omits_plain (.struct true fs) (raw, v)).symm.trans h1) (by simp)
  · have hif : (true && decide (raw ≠ [])) = true := by simp [hr]
    dsimp only at hc
    rw [if_pos hif] at hc
    cases hc
    cases e1
    rcases hset with ⟨h1, _⟩ | ⟨_, rfl⟩
    · cases h1
    · rfl

theorem strip_tlv {cls tag : Nat} {con : Bool} {c : Bytes} (hc : cls < 4) (ht : tag < 2 ^ 31) (hl : c.length < 2 ^ 31) : stripHeader (tlv cls con tag c) = c := by
  have h := tlv_elem (con := con) hc ht hl
  obtain ⟨hdr, hh, e⟩ := h
  rw [e, stripHeader_of hh]

/-! ## Algorithm identifiers -/

/-- Parameters as they are written, and as they are read. -/
def ParamsRead (p p' : RawVal) : Prop := (p = {} ∧ p' = {}) ∨ (Ty.omits { optional := true } .rawValue p = false ∧ RawElem p' ∧ p'.full = rawBytes p)

theorem alg_out {menv : MarEnv} {a : AlgId} {p' : RawVal} (hv : ValidOid a.oid) (hp : ParamsRead a.params p') {b : Bytes}
    (h : makeField menv algIdTy {} a.out = .ok b) (hl : b.length < 2 ^ 31) : AlgEncV ⟨a.oid, p'⟩ b := by
  obtain ⟨oid, params⟩ := a
  obtain ⟨c, h', rfl⟩ := struct_ok (fs := .cons [] .oid (.cons (b!"optional") .rawValue .nil)) [] (oid, params, ()) h
  obtain ⟨x, xs, h1, h2, rfl⟩ := cons_ok (t := .oid) (fs := .cons (b!"optional") .rawValue .nil) oid (params, ()) h'
  obtain ⟨y, ys, h3, h4, rfl⟩ := cons_ok (t := .rawValue) (fs := .nil) params () h2
  obtain rfl := nil_ok _ h4
  rw [mp_empty] at h1
  rw [mp_optional] at h3
  obtain ⟨o, h5, rfl⟩ := oid_ok _ h1
  have l1 := tlv_length 0 16 true (tlv 0 false 6 o ++ (y ++ []))
  have l2 := tlv_length 0 6 false o
  rw [List.append_nil] at hl l1 ⊢
  rw [List.length_append] at l1
  have l4 : (tlv 0 false 6 o ++ y).length < 2 ^ 31 := by rw [List.length_append]; omega
  refine ⟨_, oidElem_written hv h5 (by omega), ?_⟩
  rcases hp with ⟨hp1, hp2⟩ | ⟨hp1, hp2, hp3⟩
  · left
    have hp1 : params = {} := hp1
    subst hp1
    have hy : y = [] := by
      rcases raw_ok _ h3 with ⟨_, h⟩ | ⟨h, _⟩
      · exact h
      · have : Ty.omits { optional := true } .rawValue ({} : RawVal) = true := by decide
        rw [this] at h; cases h
    subst hy
    rw [List.append_nil] at l4 ⊢
    exact ⟨hp2, tlv_elem (by decide) (by decide) l4⟩
  · right
    have hp1 : Ty.omits { optional := true } .rawValue params = false := hp1
    have hy : y = p'.full := by
      rcases raw_ok _ h3 with ⟨h, _⟩ | ⟨_, h⟩
      · rw [hp1] at h; cases h
      · rw [h, hp3]
    subst hy
    exact ⟨hp2, tlv_elem (by decide) (by decide) l4⟩

theorem params_none : ParamsRead {} {} := .inl ⟨rfl, rfl⟩

/-- NULL. -/
def nullRead : RawVal := ⟨0, 5, false, [], [5, 0]⟩

theorem params_null : ParamsRead nullRaw nullRead := by
  refine .inr ⟨by decide, ?_, by decide⟩
  have := tlv_elem (cls := 0) (tag := 5) (con := false) (content := []) (by decide) (by decide) (by decide)
  exact this

theorem params_full {cls tag : Nat} {con : Bool} {c b : Bytes} (h : Elem cls tag con c b) : ParamsRead (rawFull b) ⟨cls, tag, con, c, b⟩ := by
  have hne : b ≠ [] := h.ne
  refine .inr ⟨?_, h, ?_⟩
  · show (false && _ || (true && eqv (α := RawVal) (rawFull b) {})) = false
    simp [eqv, rawFull, hne]
  · show b = rawBytes (rawFull b)
    unfold rawBytes rawFull
    exact (if_pos hne).symm

/-! ## Bit strings, raw values -/

theorem bits_ok {menv : MarEnv} (b : Bytes) {x : Bytes} (h : makeField menv .bits {} (wholeBits b) = .ok x) : x = tlv 0 false 3 (0 :: b) := by
  have h := (make_leaf (t := .bits) (.inl (by simp [IsLeaf])) (wholeBits b)).symm.trans h
  rcases fieldTagged_ok h with ⟨h1, _⟩ | ⟨_, t, t', c, _, _, e1, hset, hc, rfl⟩
  · exact absurd ((omits_plain .bits (wholeBits b)).symm.trans h1) (by simp)
  · cases e1
    cases hc
    rcases hset with ⟨h1, _⟩ | ⟨_, rfl⟩
    · cases h1
    · have e : encodeBitString (wholeBits b) = 0 :: b := by
        unfold encodeBitString wholeBits
        simp only
        rw [show (8 - b.length * 8 % 8) % 8 = 0 from by omega]
        rfl
      show tlv 0 false 3 (encodeBitString (wholeBits b)) = _
      rw [e]

theorem bits_reads {env : AsnEnv} {b x : Bytes} (he : Elem 0 3 false (0 :: b) x) (rest : Bytes) : Reads env .bits {} (wholeBits b) (x ++ rest) rest := by
  have := reads_bits (env := env) plain0 he rest
  rw [show wholeBits b = ⟨b, 8 * b.length⟩ from by unfold wholeBits; rw [Nat.mul_comm]]
  exact this

theorem rawFull_ok {menv : MarEnv} {b x : Bytes} (hne : b ≠ []) (h : makeField menv .rawValue {} (rawFull b) = .ok x) : x = b := by
  rcases raw_ok _ h with ⟨h5, _⟩ | ⟨_, rfl⟩
  · exact absurd ((omits_plain .rawValue (rawFull b)).symm.trans h5) (by simp)
  · unfold rawBytes rawFull
    exact if_pos hne

theorem slice_elem {env : AsnEnv} {e : Ty} (v : List e.interp) {b : Bytes} : ∀ {w : (Ty.slice false e).interp}, w = v →
    Reads env (.slice false e) {} w b [] → ∃ c, Elem 0 16 true c b := by
  intro w _ hw
  rw [Reads] at hw
  rcases hw with ⟨tl, inner, hl, _⟩ | ⟨h, _⟩
  · cases hl with
    | plain h1 h2 h3 h4 =>
      obtain ⟨cls, tag, len, con⟩ := tl
      obtain ⟨h5, h6⟩ := h3
      have h5' : con = true := by
        rcases h5 with h | h
        · cases h
        · exact h
      have h6' : cls = 0 ∧ tag = 16 := by
        rcases h6 with h | ⟨h, h'⟩
        · cases h
        · exact ⟨h, h'⟩
      clear h5 h6
      obtain ⟨rfl, rfl⟩ := h6'
      subst h5'
      have h4 : inner.length = len := h4
      subst h4
      refine ⟨inner, _, h2, ?_⟩
      rw [List.append_nil]
    | explicit h1 => cases h1
    | explicitRaw h1 => cases h1
  · exact absurd (absent_optional h) (by simp)

/-- A name is one SEQUENCE. -/
theorem name_elem {env : AsnEnv} {b : Bytes} {n : PName} (h : NameIs env b n) : ∃ c, Elem 0 16 true c b := by
  obtain ⟨v, hv, _⟩ := h
  refine slice_elem (e := .slice true atavTy) v (w := v) rfl hv

/-! ## Extensions -/

theorem bool_ok {menv : MarEnv} (v : Bool) {b : Bytes} (h : makeField menv .bool { optional := true } v = .ok b) :
    (v = false ∧ b = []) ∨ (v = true ∧ b = [1, 1, 255]) := by
  cases v with
  | false =>
    have h := (make_leaf (t := .bool) (.inl (by simp [IsLeaf])) false).symm.trans h
    exact .inl ⟨rfl, (Except.ok.inj h).symm⟩
  | true =>
    have h := (make_leaf (t := .bool) (.inl (by simp [IsLeaf])) true).symm.trans h
    exact .inr ⟨rfl, (Except.ok.inj h).symm⟩

theorem ext_out {env : AsnEnv} {menv : MarEnv} {e : Ext} (hv : ValidOid e.1) {b : Bytes} (h : makeField menv extensionTy {} e.parsed = .ok b) (hl : b.length < 2 ^ 31) :
    (b ≠ [] ∧ ∀ rest, Reads env extensionTy {} e.parsed (b ++ rest) rest) ∧ e.2.2.length ≤ b.length := by
  obtain ⟨id, crit, val⟩ := e
  obtain ⟨c, h', rfl⟩ := struct_ok (fs := .cons [] .oid (.cons (b!"optional") .bool (.cons [] .octets .nil))) [] (id, crit, val, ()) h
  obtain ⟨x, xs, h1, h2, rfl⟩ := cons_ok (t := .oid) (fs := .cons (b!"optional") .bool (.cons [] .octets .nil)) id (crit, val, ()) h'
  obtain ⟨y, ys, h3, h4, rfl⟩ := cons_ok (t := .bool) (fs := .cons [] .octets .nil) crit (val, ()) h2
  obtain ⟨z, zs, h5, h6, rfl⟩ := cons_ok (t := .octets) (fs := .nil) val () h4
  obtain rfl := nil_ok _ h6
  rw [mp_empty] at h1 h5
  rw [mp_optional] at h3
  obtain ⟨o, h7, rfl⟩ := oid_ok _ h1
  obtain rfl := oct_ok _ h5
  have l1 := tlv_length 0 16 true (tlv 0 false 6 o ++ (y ++ (tlv 0 false 4 val ++ [])))
  have l2 := tlv_length 0 6 false o
  have l3 := tlv_length 0 4 false val
  have l1' := Nat.lt_of_le_of_lt l1 hl
  have l5 := l1
  rw [List.length_append, List.length_append, List.length_append] at l1
  have hO : OidElem id (tlv 0 false 6 o) := oidElem_written hv h7 (by omega)
  have hV : Elem 0 4 false val (tlv 0 false 4 val) := tlv_elem (by decide) (by decide) (by omega)
  have hE : Elem 0 16 true (tlv 0 false 6 o ++ (y ++ (tlv 0 false 4 val ++ []))) (tlv 0 true 16 (tlv 0 false 6 o ++ (y ++ (tlv 0 false 4 val ++ [])))) :=
    tlv_elem (by decide) (by decide) l1'
  refine ⟨⟨hE.ne, fun rest => ?_⟩, by show val.length ≤ _; omega⟩
  refine reads_struct (raw := false) (fs := .cons [] .oid (.cons (b!"optional") .bool (.cons [] .octets .nil)))
    (hE.located rfl (present_plain (t := extensionTy) plain0 rfl) rest) (v := (id, crit, val, ())) ?_
  refine readsAll_cons.2 ⟨_, by rw [fp_empty]; exact reads_oid plain0 hO _, readsAll_cons.2 ⟨tlv 0 false 4 val ++ [], ?_, readsAll_cons.2 ⟨[], ?_, readsAll_nil⟩⟩⟩
  · rw [fp_optional]
    rcases bool_ok _ h3 with ⟨rfl, rfl⟩ | ⟨rfl, rfl⟩
    · refine reads_absent (t := .bool) (by simp) ?_ rfl
      refine hV.absent rfl rfl ?_ []
      rintro ⟨_, hp⟩
      rcases hp with hp | ⟨_, hp⟩
      · cases hp
      · have hp : (4 : Nat) = 1 := hp
        cases hp
    · have hB : Elem 0 1 false [255] [1, 1, 255] := tlv_elem (cls := 0) (tag := 1) (con := false) (content := [255]) (by decide) (by decide) (by decide)
      have hP : FieldPresent .bool { optional := true } ⟨0, 1, 1, false⟩ := ⟨.inr rfl, .inr ⟨rfl, rfl⟩⟩
      refine (reads_prim (t := .bool) (by simp) (by simp) (by simp)).2 (.inl ⟨_, _, hB.located rfl hP _, ?_⟩)
      exact .inl ⟨rfl, rfl⟩
  · rw [fp_empty]
    have := reads_octets (env := env) plain0 hV []
    exact this

/-! ## The signed part -/

theorem mp_version : parseMP (b!"optional,explicit,default:0,tag:0") = { optional := true, explicit := true, dflt := some 0, tag := some 0 } := by decide
theorem fp_version : parseFP (b!"optional,explicit,default:0,tag:0") = { optional := true, explicit := true, dflt := some 0, tag := some 0 } := by decide
theorem mp_opt2 : parseMP (b!"optional,tag:2") = { optional := true, tag := some 2 } := by decide
theorem fp_opt2 : parseFP (b!"optional,tag:2") = { optional := true, tag := some 2 } := by decide
theorem mp_exp3 : parseMP (b!"explicit,tag:3") = { explicit := true, tag := some 3 } := by decide
theorem fp_exp3 : parseFP (b!"optional,explicit,tag:3") = { optional := true, explicit := true, tag := some 3 } := by decide

theorem leaf_reads {env : AsnEnv} {menv : MarEnv} (hst : menv.sortSets = true) {t : Ty} (hl : IsLeaf t) {mp : MP} (hok : mp.toFP.Ok) {v : t.interp}
    (ho : Ty.omits mp t v = false) (hs : mp.Symmetric) (hf : LeafFits env menv mp t v) {b : Bytes} (h : makeField menv t mp v = .ok b)
    (hlen : b.length < 2 ^ 31) (rest : Bytes) : Reads env t mp.toFP v (b ++ rest) rest := by
  obtain ⟨w, h1, h2⟩ := makeField_reads env menv t mp hok v b rest h hlen (fits_leaf_intro hl ho hs hf)
  rw [hst] at h2
  rw [← Cre.same_leaf hl h2]
  exact h1

theorem time_reads {env : AsnEnv} {menv : MarEnv} (hst : menv.sortSets = true) {v : Int} (hf : LeafFits env menv {} .time v) {b : Bytes}
    (h : makeField menv .time {} v = .ok b) (hlen : b.length < 2 ^ 31) (rest : Bytes) : Reads env .time {} v (b ++ rest) rest :=
  leaf_reads hst (t := .time) (by simp [IsLeaf]) (mp := {}) (by intro h; cases h) (omits_plain .time v) symmetric_plain hf h hlen rest

theorem version_reads {env : AsnEnv} {menv : MarEnv} (hst : menv.sortSets = true) {b : Bytes}
    (h : makeField menv .int { optional := true, explicit := true, dflt := some 0, tag := some 0 } (2 : Int) = .ok b) (hlen : b.length < 2 ^ 31) (rest : Bytes) :
    Reads env .int { optional := true, explicit := true, dflt := some 0, tag := some 0 } (2 : Int) (b ++ rest) rest :=
  leaf_reads hst (t := .int) (by simp [IsLeaf]) (mp := { optional := true, explicit := true, dflt := some 0, tag := some 0 }) (by intro _ h; cases h) (by decide)
    ⟨by intro n h; cases h; decide, by intro h; cases h⟩ (by show IsInt64 2; unfold IsInt64; decide) h hlen rest

theorem validity_reads {env : AsnEnv} {menv : MarEnv} (hst : menv.sortSets = true) {nb na : Int} (h1 : LeafFits env menv {} .time nb) (h2 : LeafFits env menv {} .time na)
    {b : Bytes} (h : makeField menv validityTy {} (([] : Bytes), nb, na, ()) = .ok b) (hl : b.length < 2 ^ 31) (rest : Bytes) :
    Reads env validityTy {} (([] : Bytes), nb, na, ()) (b ++ rest) rest := by
  obtain ⟨c, h', rfl⟩ := struct_ok (fs := .cons [] .time (.cons [] .time .nil)) [] (nb, na, ()) h
  obtain ⟨x, xs, h3, h4, rfl⟩ := cons_ok (t := .time) (fs := .cons [] .time .nil) nb (na, ()) h'
  obtain ⟨y, ys, h5, h6, rfl⟩ := cons_ok (t := .time) (fs := .nil) na () h4
  obtain rfl := nil_ok _ h6
  rw [mp_empty] at h3 h5
  have l1 := Nat.lt_of_le_of_lt (tlv_length 0 16 true (x ++ (y ++ []))) hl
  have l2 := l1
  rw [List.length_append, List.length_append] at l2
  have hE : Elem 0 16 true (x ++ (y ++ [])) (tlv 0 true 16 (x ++ (y ++ []))) := tlv_elem (by decide) (by decide) l1
  refine reads_struct (raw := false) (fs := .cons [] .time (.cons [] .time .nil)) (hE.located rfl (present_plain (t := validityTy) plain0 rfl) rest) (v := (nb, na, ())) ?_
  refine readsAll_cons.2 ⟨_, by rw [fp_empty]; exact time_reads hst h1 h3 (by omega) _, readsAll_cons.2 ⟨[], ?_, readsAll_nil⟩⟩
  rw [fp_empty]
  exact time_reads hst h2 h5 (by omega) []

theorem spki_reads {env : AsnEnv} {menv : MarEnv} {a : AlgId} {p' : RawVal} (hv : ValidOid a.oid) (hp : ParamsRead a.params p') {bits : Bytes}
    {b : Bytes} (h : makeField menv publicKeyInfoTy {} (([] : Bytes), a.out, wholeBits bits, ()) = .ok b) (hl : b.length < 2 ^ 31) :
    bits.length < 2 ^ 31 ∧ ∀ rest, Reads env publicKeyInfoTy {} (b, AlgId.go ⟨a.oid, p'⟩, wholeBits bits, ()) (b ++ rest) rest := by
  obtain ⟨c, h', rfl⟩ := struct_fresh (fs := .cons [] algIdTy (.cons [] .bits .nil)) (a.out, wholeBits bits, ()) h
  obtain ⟨x, xs, h3, h4, rfl⟩ := cons_ok (t := algIdTy) (fs := .cons [] .bits .nil) a.out (wholeBits bits, ()) h'
  obtain ⟨y, ys, h5, h6, rfl⟩ := cons_ok (t := .bits) (fs := .nil) (wholeBits bits) () h4
  obtain rfl := nil_ok _ h6
  rw [mp_empty] at h3 h5
  obtain rfl := bits_ok _ h5
  have l1 := Nat.lt_of_le_of_lt (tlv_length 0 16 true (x ++ (tlv 0 false 3 (0 :: bits) ++ []))) hl
  have l2 := l1
  rw [List.length_append, List.length_append] at l2
  have l3 := tlv_length 0 3 false (0 :: bits)
  have hE : Elem 0 16 true (x ++ (tlv 0 false 3 (0 :: bits) ++ [])) (tlv 0 true 16 (x ++ (tlv 0 false 3 (0 :: bits) ++ []))) := tlv_elem (by decide) (by decide) l1
  refine ⟨by simp only [List.length_cons] at l3; omega, fun rest => ?_⟩
  refine reads_struct (raw := true) (fs := .cons [] algIdTy (.cons [] .bits .nil)) (hE.located rfl (present_plain (t := publicKeyInfoTy) plain0 rfl) rest)
    (v := (AlgId.go ⟨a.oid, p'⟩, wholeBits bits, ())) ?_
  refine readsAll_cons.2 ⟨_, by rw [fp_empty]; exact (readsV_alg (alg_out hv hp h3 (by omega))).2 _, readsAll_cons.2 ⟨[], ?_, readsAll_nil⟩⟩
  rw [fp_empty]
  exact bits_reads (tlv_elem (by decide) (by decide) (by omega)) []

theorem exts_ok {menv : MarEnv} (v : List extensionTy.interp) {b : Bytes}
    (h : makeField menv (.slice false extensionTy) { explicit := true, tag := some 3 } v = .ok b) :
    ∃ encs, makeElems (makeField menv extensionTy {}) v = .ok encs ∧ b = tlv 2 true 3 (tlv 0 true 16 encs.flatten) := by
  have h := (make_slice (s := false) (e := extensionTy) v).symm.trans h
  rcases fieldTagged_ok h with ⟨h1, _⟩ | ⟨_, t, t', c, _, _, e1, hset, hc, rfl⟩
  · exact absurd ((omits_required (mp := { explicit := true, tag := some 3 }) rfl rfl (.slice false extensionTy) v).symm.trans h1) (by simp)
  · cases e1
    rcases hset with ⟨h1, _⟩ | ⟨_, rfl⟩
    · cases h1
    · cases he : makeElems (makeField menv extensionTy {}) v with
      | error er => rw [he] at hc; cases hc
      | ok encs =>
        rw [he] at hc
        have hc := Except.ok.inj hc
        have h16 : ¬ ((menv.sortSets && decide (((if (false = true) then 17 else 16) : Int) = 17)) = true) := by simp
        dsimp only at hc
        rw [if_neg h16] at hc
        subst hc
        exact ⟨encs, rfl, rfl⟩

theorem exts_reads {env : AsnEnv} {menv : MarEnv} {exts : List Ext} (hv : ∀ e ∈ exts, ValidOid e.1) {b : Bytes}
    (h : makeField menv (.slice false extensionTy) { explicit := true, tag := some 3 } (exts.map Ext.parsed) = .ok b) (hl : b.length < 2 ^ 31) :
    (∃ c, Elem 2 3 true c b) ∧ Reads env (.slice false extensionTy) { optional := true, explicit := true, tag := some 3 } (exts.map Ext.parsed) b [] ∧
      ∀ e ∈ exts, e.2.2.length < 2 ^ 31 := by
  obtain ⟨encs, h1, rfl⟩ := exts_ok _ h
  have l1 := tlv_length 2 3 true (tlv 0 true 16 encs.flatten)
  have l2 := tlv_length 0 16 true encs.flatten
  have hE0 : Elem 2 3 true (tlv 0 true 16 encs.flatten) (tlv 2 true 3 (tlv 0 true 16 encs.flatten)) := tlv_elem (by decide) (by decide) (by omega)
  have hE1 : Elem 0 16 true encs.flatten (tlv 0 true 16 encs.flatten) := tlv_elem (by decide) (by decide) (by omega)
  have hrel := elems_written (h := id) (g := Ext.parsed)
    (P := fun (e : Ext) b => (b ≠ [] ∧ ∀ rest, Reads env extensionTy {} e.parsed (b ++ rest) rest) ∧ e.2.2.length ≤ b.length ∧ b.length < 2 ^ 31) h1
    (fun e he b hb hlb => ⟨(ext_out (hv e he) hb hlb).1, (ext_out (env := env) (hv e he) hb hlb).2, hlb⟩) (by omega)
  rw [List.map_id] at hrel
  have henc := listEnc_of_rel hrel
  refine ⟨⟨_, hE0⟩, ?_, fun e he => ?_⟩
  · have hs := seq_of_enc (Q := Reads env extensionTy {}) (fun _ _ h => h.1) henc
    obtain ⟨hdr0, h0, e0⟩ := hE0
    obtain ⟨hdr1, h1, e1⟩ := hE1
    have key : Located (.slice false extensionTy) { optional := true, explicit := true, tag := some 3 } (hdr0 ++ (hdr1 ++ encs.flatten ++ []))
        ⟨0, 16, encs.flatten.length, true⟩ encs.flatten [] := by
      refine Located.explicit rfl (by simp) h0 ⟨rfl, rfl, .inr rfl⟩ ?_ h1 ⟨.inr rfl, .inr ⟨rfl, rfl⟩⟩ rfl
      have : (tlv 0 true 16 encs.flatten).length ≠ 0 := by
        rw [e1, List.length_append]
        have := header_ne h1
        have := List.length_pos_iff.2 this
        omega
      show 0 < (tlv 0 true 16 encs.flatten).length
      omega
    rw [List.append_nil, ← e1, ← e0] at key
    exact reads_slice (by simp [extensionTy]) key hs
  · obtain ⟨b, hb⟩ := listEnc_mem henc e he
    omega

/-- The fields of a signed part. -/
def tbsFields : Fields :=
  .cons (b!"optional,explicit,default:0,tag:0") .int (.cons [] .bigInt (.cons [] algIdTy (.cons [] .rawValue
    (.cons [] validityTy (.cons [] .rawValue (.cons [] publicKeyInfoTy (.cons (b!"optional,tag:1") .bits
    (.cons (b!"optional,tag:2") .bits (.cons (b!"optional,explicit,tag:3") (.slice false extensionTy) .nil)))))))))

/-- The signed part as it is read. -/
def tbsRead (n nb na : Int) (alg keyAlg : AlgId) (spki : Bytes) (issuer subject : RawVal) (keyBytes : Bytes) (exts : List Ext) : tbsFields.interp :=
  ((2 : Int), some n, alg.go, issuer, (([] : Bytes), nb, na, ()), subject, (spki, keyAlg.go, wholeBits keyBytes, ()), (⟨[], 0⟩ : BitStr), (⟨[], 0⟩ : BitStr),
    exts.map Ext.parsed, ())

theorem bits_omitted {menv : MarEnv} {k : Int} {b : Bytes} (h : makeField menv .bits { optional := true, tag := some k } (⟨[], 0⟩ : BitStr) = .ok b) : b = [] := by
  have h := (make_leaf (t := .bits) (.inl (by simp [IsLeaf])) (⟨[], 0⟩ : BitStr)).symm.trans h
  exact (Except.ok.inj h).symm

theorem bits_absent {env : AsnEnv} {k : Int} (hk : (3 : Int) ≠ k) {c b : Bytes} (he : Elem 2 3 true c b) : Reads env .bits { optional := true, tag := some k } (⟨[], 0⟩ : BitStr) b b := by
  have ha : Absent .bits { optional := true, tag := some k } (b ++ []) := he.absent rfl rfl (not_present_tag rfl rfl rfl (.inr hk)) []
  rw [List.append_nil] at ha
  exact reads_absent (t := .bits) (by simp) ha rfl

theorem tbs_written {env : AsnEnv} {menv : MarEnv} (hst : menv.sortSets = true) {t : CertTemplate} {n : Int} (hser : t.serial = some n) {alg keyAlg : AlgId} {pa pk : RawVal}
    {issuer subject keyBytes : Bytes} {exts : List Ext} {ci cs : Bytes} (ha : ValidOid alg.oid) (hpa : ParamsRead alg.params pa) (hk : ValidOid keyAlg.oid)
    (hpk : ParamsRead keyAlg.params pk) (hi : Elem 0 16 true ci issuer) (hs : Elem 0 16 true cs subject)
    (hnb : LeafFits env menv {} .time t.notBefore) (hna : LeafFits env menv {} .time t.notAfter) (hv : ∀ e ∈ exts, ValidOid e.1) {tbs : Bytes}
    (h : makeField menv tbsOutTy {} (tbsValue t [] alg issuer subject keyBytes keyAlg exts) = .ok tbs) (hl : tbs.length < 2 ^ 31) :
    ∃ c spki, tbs = tlv 0 true 16 c ∧ (∀ e ∈ exts, e.2.2.length < 2 ^ 31) ∧ keyBytes.length < 2 ^ 31 ∧
      ReadsAll env tbsFields (tbsRead n t.notBefore t.notAfter ⟨alg.oid, pa⟩ ⟨keyAlg.oid, pk⟩ spki ⟨0, 16, true, ci, issuer⟩ ⟨0, 16, true, cs, subject⟩ keyBytes exts) c := by
  obtain ⟨sn, sigA, rs, sub, nb, na, tex, tex'⟩ := t
  have hser : sn = some n := hser
  subst hser
  obtain ⟨c, h', rfl⟩ := struct_fresh (fs := _) _ h
  obtain ⟨x1, r1, g1, h1, rfl⟩ := cons_ok (t := .int) (2 : Int) _ h'
  obtain ⟨x2, r2, g2, h2, rfl⟩ := cons_ok (t := .bigInt) (some n : Option Int) _ h1
  obtain ⟨x3, r3, g3, h3, rfl⟩ := cons_ok (t := algIdTy) alg.out _ h2
  obtain ⟨x4, r4, g4, h4, rfl⟩ := cons_ok (t := .rawValue) (rawFull issuer) _ h3
  obtain ⟨x5, r5, g5, h5, rfl⟩ := cons_ok (t := validityTy) (([] : Bytes), nb, na, ()) _ h4
  obtain ⟨x6, r6, g6, h6, rfl⟩ := cons_ok (t := .rawValue) (rawFull subject) _ h5
  obtain ⟨x7, r7, g7, h7, rfl⟩ := cons_ok (t := publicKeyInfoTy) (([] : Bytes), keyAlg.out, wholeBits keyBytes, ()) _ h6
  obtain ⟨x8, r8, g8, h8, rfl⟩ := cons_ok (t := .bits) (⟨[], 0⟩ : BitStr) _ h7
  obtain ⟨x9, r9, g9, h9, rfl⟩ := cons_ok (t := .bits) (⟨[], 0⟩ : BitStr) _ h8
  obtain ⟨x10, r10, g10, h10, rfl⟩ := cons_ok (t := .slice false extensionTy) (fs := .nil) (exts.map Ext.parsed) () h9
  obtain rfl := nil_ok _ h10
  rw [mp_version] at g1
  rw [mp_empty] at g2 g3 g4 g5 g6 g7
  rw [mp_opt1] at g8
  rw [mp_opt2] at g9
  rw [mp_exp3] at g10
  obtain rfl := big_ok _ g2
  obtain rfl := rawFull_ok hi.ne g4
  obtain rfl := rawFull_ok hs.ne g6
  obtain rfl := bits_omitted g8
  obtain rfl := bits_omitted g9
  have l0 := Nat.lt_of_le_of_lt (tlv_length 0 16 true _) hl
  simp only [List.length_append, List.length_nil] at l0
  have l2 := tlv_length 0 2 false (encodeBigInt n)
  obtain ⟨⟨c10, e10⟩, r10, hval⟩ := exts_reads (env := env) hv g10 (by omega)
  have hsp := spki_reads (env := env) hk hpk g7 (by omega)
  refine ⟨_, x7, rfl, hval, hsp.1, ?_⟩
  simp only [List.nil_append, List.append_nil]
  unfold tbsFields tbsRead
  refine readsAll_cons.2 ⟨_, by rw [fp_version]; exact version_reads hst g1 (by omega) _, ?_⟩
  refine readsAll_cons.2 ⟨_, by rw [fp_empty]; exact reads_big plain0 (bigElem_written (by omega)) _, ?_⟩
  refine readsAll_cons.2 ⟨_, by rw [fp_empty]; exact (readsV_alg (alg_out ha hpa g3 (by omega))).2 _, ?_⟩
  refine readsAll_cons.2 ⟨_, by rw [fp_empty]; exact reads_raw rfl rfl hi _, ?_⟩
  refine readsAll_cons.2 ⟨_, by rw [fp_empty]; exact validity_reads hst hnb hna g5 (by omega) _, ?_⟩
  refine readsAll_cons.2 ⟨_, by rw [fp_empty]; exact reads_raw rfl rfl hs _, ?_⟩
  refine readsAll_cons.2 ⟨_, by rw [fp_empty]; exact hsp.2 _, ?_⟩
  refine readsAll_cons.2 ⟨_, by rw [fp_opt1]; exact bits_absent (by decide) e10, ?_⟩
  refine readsAll_cons.2 ⟨_, by rw [fp_opt2]; exact bits_absent (by decide) e10, ?_⟩
  refine readsAll_cons.2 ⟨[], by rw [fp_exp3]; exact r10, readsAll_nil⟩

/-! ## Whole certificates -/

/-- A header is short. -/
theorem strip_length (b : Bytes) : b.length ≤ (stripHeader b).length + 140 := by
  unfold stripHeader
  cases h : parseTagAndLength b with
  | error e => simp
  | ok r =>
    obtain ⟨tl, rest⟩ := r
    obtain ⟨hdr, ⟨p, l, rfl, ⟨x, q, rfl, _, _, hq⟩, ⟨_, hl⟩⟩, rfl⟩ := (header_iff _ _ _).1 h
    have h1 : q.length ≤ 5 := by
      rcases hq with ⟨_, rfl, _⟩ | ⟨_, h, _⟩
      · simp
      · exact h
    have h2 : l.length ≤ 128 := by
      rcases hl with ⟨y, rfl, _⟩ | ⟨y, ds, rfl, _, hy, _⟩
      · simp
      · have := y.toNat_lt
        simp only [List.length_cons]
        omega
    simp only [List.length_append, List.length_cons]
    omega

/-- The certificate as it is read. -/
def certRead (der tbs : Bytes) (v : tbsFields.interp) (alg : AlgId) (signature : Bytes) : certificateTy.interp :=
  (der, (tbs, v), alg.go, wholeBits signature, ())

theorem cert_written {env : AsnEnv} {menv : MarEnv} {alg : AlgId} {pa : RawVal} (ha : ValidOid alg.oid) (hpa : ParamsRead alg.params pa) {v : tbsOutTy.interp}
    {c signature : Bytes} (hv : v.1 = tlv 0 true 16 c) {der : Bytes}
    (h : makeField menv certificateOutTy {} (([] : Bytes), v, alg.out, wholeBits signature, ()) = .ok der) (hl : der.length < 2 ^ 30) :
    (tlv 0 true 16 c).length < 2 ^ 31 ∧ ∀ w, ReadsAll env tbsFields w c → Reads env certificateTy {} (certRead der (tlv 0 true 16 c) w ⟨alg.oid, pa⟩ signature) der [] := by
  obtain ⟨c', h', rfl⟩ := struct_fresh (fs := .cons [] tbsOutTy (.cons [] algIdTy (.cons [] .bits .nil))) (v, alg.out, wholeBits signature, ()) h
  obtain ⟨x, r1, g1, h1, rfl⟩ := cons_ok (t := tbsOutTy) (fs := .cons [] algIdTy (.cons [] .bits .nil)) v (alg.out, wholeBits signature, ()) h'
  obtain ⟨y, r2, g2, h2, rfl⟩ := cons_ok (t := algIdTy) (fs := .cons [] .bits .nil) alg.out (wholeBits signature, ()) h1
  obtain ⟨z, r3, g3, h3, rfl⟩ := cons_ok (t := .bits) (fs := .nil) (wholeBits signature) () h2
  obtain rfl := nil_ok _ h3
  rw [mp_empty] at g1 g2 g3
  obtain rfl := bits_ok _ g3
  rw [List.append_nil] at hl ⊢
  have l1 := Nat.lt_of_le_of_lt (tlv_length 0 16 true _) hl
  have l2 := l1
  simp only [List.length_append] at l2
  have l3 := tlv_length 0 3 false (0 :: signature)
  obtain ⟨raw, v'⟩ := v
  have hv : raw = tlv 0 true 16 c := hv
  subst hv
  have hne : tlv 0 true 16 c ≠ [] := by
    intro h
    have := congrArg List.length h
    simp [tlv, encodeTagAndLength] at this
  have hx := struct_kept v' hne g1
  have l4 : c.length < 2 ^ 31 := by
    have q1 := tlv_length 0 16 true (stripHeader (tlv 0 true 16 c))
    rw [← hx] at q1
    have q2 := strip_length (tlv 0 true 16 c)
    have q3 := tlv_length 0 16 true c
    omega
  rw [strip_tlv (by decide) (by decide) l4] at hx
  subst hx
  have hE := tlv_elem (cls := 0) (tag := 16) (con := true) (by decide) (by decide) (Nat.lt_trans l1 (by decide))
  have hT := tlv_elem (cls := 0) (tag := 16) (con := true) (content := c) (by decide) (by decide) l4
  refine ⟨by omega, fun w hw => ?_⟩
  have := reads_struct (env := env) (raw := true) (fs := .cons [] tbsCertificateTy (.cons [] algIdTy (.cons [] .bits .nil)))
    (hE.located rfl (present_plain (t := certificateTy) plain0 rfl) []) (v := ((tlv 0 true 16 c, w), AlgId.go ⟨alg.oid, pa⟩, wholeBits signature, ())) ?_
  · rw [List.append_nil] at this
    exact this
  · refine readsAll_cons.2 ⟨y ++ tlv 0 false 3 (0 :: signature), ?_, readsAll_cons.2 ⟨tlv 0 false 3 (0 :: signature) ++ [], ?_, readsAll_cons.2 ⟨[], ?_, readsAll_nil⟩⟩⟩
    rotate_left
    · rw [fp_empty, List.append_nil]
      exact (readsV_alg (alg_out ha hpa g2 (by omega))).2 _
    rotate_left
    · rw [fp_empty]
      exact reads_struct (env := env) (raw := true) (fs := tbsFields) (hT.located rfl (present_plain (t := tbsCertificateTy) plain0 rfl) _) (v := w) hw
    · rw [fp_empty]
      exact bits_reads (tlv_elem (by decide) (by decide) (by omega)) []

/-! ## Signature algorithms -/

/-- RSA PSS parameters. -/
def pssContent (h salt : UInt8) : Bytes :=
  [160, 15, 48, 13, 6, 9, 96, 134, 72, 1, 101, 3, 4, 2, h, 5, 0, 161, 28, 48, 26, 6, 9, 42, 134, 72, 134, 247, 13, 1, 1, 8, 48, 13, 6, 9, 96, 134, 72, 1, 101, 3, 4, 2, h,
   5, 0, 162, 3, 2, 1, salt]

theorem pss5 : rsaPssParams 5 = .ok (rawFull (48 :: 52 :: pssContent 1 32)) := by with_unfolding_all rfl
theorem pss6 : rsaPssParams 6 = .ok (rawFull (48 :: 52 :: pssContent 2 48)) := by with_unfolding_all rfl
theorem pss7 : rsaPssParams 7 = .ok (rawFull (48 :: 52 :: pssContent 3 64)) := by with_unfolding_all rfl

theorem pss_elem (h salt : UInt8) : Elem 0 16 true (pssContent h salt) (48 :: 52 :: pssContent h salt) := by
  have := tlv_elem (cls := 0) (tag := 16) (con := true) (content := pssContent h salt) (by decide) (by decide) (by show 52 < 2 ^ 31; decide)
  exact this

theorem pss5_is (env : AsnEnv) : SigAlgIs env [1,2,840,113549,1,1,10] (48 :: 52 :: pssContent 1 32) 13 := by
  have : sigAlgOf env ⟨[1,2,840,113549,1,1,10], ⟨0, 16, true, pssContent 1 32, 48 :: 52 :: pssContent 1 32⟩⟩ = .ok 13 := by with_unfolding_all rfl
  exact sigAlgIs_iff.1 this
theorem pss6_is (env : AsnEnv) : SigAlgIs env [1,2,840,113549,1,1,10] (48 :: 52 :: pssContent 2 48) 14 := by
  have : sigAlgOf env ⟨[1,2,840,113549,1,1,10], ⟨0, 16, true, pssContent 2 48, 48 :: 52 :: pssContent 2 48⟩⟩ = .ok 14 := by with_unfolding_all rfl
  exact sigAlgIs_iff.1 this
theorem pss7_is (env : AsnEnv) : SigAlgIs env [1,2,840,113549,1,1,10] (48 :: 52 :: pssContent 3 64) 15 := by
  have : sigAlgOf env ⟨[1,2,840,113549,1,1,10], ⟨0, 16, true, pssContent 3 64, 48 :: 52 :: pssContent 3 64⟩⟩ = .ok 15 := by with_unfolding_all rfl
  exact sigAlgIs_iff.1 this

/-- What is known of the algorithm and hash function that were chosen. -/
def Chosen (env : AsnEnv) (pub : Key) (requested hash : Nat) (alg : AlgId) : Prop :=
  ∃ pa n, ValidOid alg.oid ∧ ParamsRead alg.params pa ∧ SigAlgIs env alg.oid pa.full n ∧ (requested ≠ 0 → n = requested) ∧ (requested = 0 → DefaultAlgorithm pub n) ∧
    AlgorithmFor pub n ∧ (n, hash) ∈ algHashes ∧ isRsaPss requested = decide (n ∈ [13, 14, 15])

theorem default_chosen {env : AsnEnv} {pub : Key} {kind : PKAlgo} {hash : Nat} {alg : AlgId} (h : defaultSigning pub = .ok (kind, hash, alg)) :
    Chosen env pub 0 hash alg ∧ ((kind = .rsa ∧ alg.params = nullRaw ∧ ∃ n e, pub = .rsa n e) ∨ (kind = .ecdsa ∧ alg.params = {} ∧ ∃ c x y, pub = .ecdsa c x y)) := by
  have ch : ∀ {oid : List Nat} {p pa : RawVal} {n hash : Nat}, ValidOid oid → ParamsRead p pa → (oid, n) ∈ signatureAlgorithms → DefaultAlgorithm pub n → AlgorithmFor pub n →
      (n, hash) ∈ algHashes → n ∉ [13, 14, 15] → Chosen env pub 0 hash ⟨oid, p⟩ :=
    fun h1 h2 h3 h4 h5 h6 h7 => ⟨_, _, h1, h2, .known h3, fun h => absurd rfl h, fun _ => h4, h5, h6, by rw [decide_eq_false h7]; rfl⟩
  cases pub with
  | rsa n e =>
    cases h
    exact ⟨ch (by unfold ValidOid; decide) params_null (n := 4) (by decide) .rsa (.rsa (by decide)) (by decide) (by decide), .inl ⟨rfl, rfl, _, _, rfl⟩⟩
  | ecdsa c x y =>
    unfold defaultSigning at h
    dsimp only at h
    by_cases h1 : c = [1,3,132,0,33] ∨ c = [1,2,840,10045,3,1,7]
    · rw [if_pos h1] at h
      cases h
      refine ⟨ch (by unfold ValidOid; decide) params_none (n := 10) (by decide) ?_ (.ecdsa (by decide)) (by decide) (by decide), .inr ⟨rfl, rfl, _, _, _, rfl⟩⟩
      rcases h1 with rfl | rfl
      · exact .p224
      · exact .p256
    · rw [if_neg h1] at h
      by_cases h2 : c = [1,3,132,0,34]
      · rw [if_pos h2] at h
        cases h
        subst h2
        exact ⟨ch (by unfold ValidOid; decide) params_none (n := 11) (by decide) .p384 (.ecdsa (by decide)) (by decide) (by decide), .inr ⟨rfl, rfl, _, _, _, rfl⟩⟩
      · rw [if_neg h2] at h
        by_cases h3 : c = [1,3,132,0,35]
        · rw [if_pos h3] at h
          cases h
          subst h3
          exact ⟨ch (by unfold ValidOid; decide) params_none (n := 12) (by decide) .p521 (.ecdsa (by decide)) (by decide) (by decide), .inr ⟨rfl, rfl, _, _, _, rfl⟩⟩
        · rw [if_neg h3] at h; cases h
  | dsa p q g y => cases h
  | none => cases h

theorem signing_chosen {env : AsnEnv} {pub : Key} {requested hash : Nat} {alg : AlgId} (h : signingParams pub requested = .ok (.ok (hash, alg))) :
    Chosen env pub requested hash alg := by
  unfold signingParams at h
  cases hd : defaultSigning pub with
  | error e => rw [hd] at h; cases h
  | ok r =>
    obtain ⟨kind, hash0, alg0⟩ := r
    rw [hd] at h
    simp only at h
    obtain ⟨hc, hk⟩ := default_chosen (env := env) hd
    by_cases h0 : requested = 0
    · rw [if_pos h0] at h
      cases h
      subst h0
      exact hc
    · rw [if_neg h0] at h
      cases hf : certSigDetails.find? (fun d => decide (d.1 = requested)) with
      | none => rw [hf] at h; cases h
      | some d =>
        rw [hf] at h
        simp only at h
        have hm := List.mem_of_find?_eq_some hf
        have hr := List.find?_some hf
        have hr : d.1 = requested := of_decide_eq_true hr
        obtain ⟨a, oid, k, hh⟩ := d
        have hr : a = requested := hr
        subst hr
        by_cases h1 : k ≠ kind
        · rw [if_pos h1] at h; cases h
        · rw [if_neg h1] at h
          have h1 : k = kind := Classical.byContradiction h1
          subst h1
          by_cases h2 : hh = 0
          · rw [if_pos h2] at h; cases h
          · rw [if_neg h2] at h
            have fin : ∀ {p pa : RawVal}, ValidOid oid → ParamsRead p pa → SigAlgIs env oid pa.full a → AlgorithmFor pub a → (a, hh) ∈ algHashes →
                Chosen env pub a hh ⟨oid, p⟩ :=
              fun q1 q2 q3 q4 q5 => ⟨_, _, q1, q2, q3, fun _ => rfl, fun h => absurd h h0, q4, q5, by simp [isRsaPss, Bool.or_assoc]⟩
            rcases hk with ⟨rfl, hp, n, e, rfl⟩ | ⟨rfl, hp, c, x, y, rfl⟩
            · unfold certSigDetails at hm
              simp only [List.mem_cons, Prod.mk.injEq, List.mem_nil_iff, or_false] at hm
              rcases hm with ⟨rfl, rfl, hk, rfl⟩ | ⟨rfl, rfl, hk, rfl⟩ | ⟨rfl, rfl, hk, rfl⟩ | ⟨rfl, rfl, hk, rfl⟩ | ⟨rfl, rfl, hk, rfl⟩ | ⟨rfl, rfl, hk, rfl⟩ | ⟨rfl, rfl, hk, rfl⟩ |
                ⟨rfl, rfl, hk, rfl⟩ | ⟨rfl, rfl, hk, rfl⟩ | ⟨rfl, rfl, hk, rfl⟩ | ⟨rfl, rfl, hk, rfl⟩ | ⟨rfl, rfl, hk, rfl⟩ | ⟨rfl, rfl, hk, rfl⟩ | ⟨rfl, rfl, hk, rfl⟩ |
                ⟨rfl, rfl, hk, rfl⟩ | ⟨rfl, rfl, hk, rfl⟩
              all_goals first
                | exact absurd rfl h2
                | (cases hk; done)
                | (cases h
                   rw [hp]
                   exact fin (by unfold ValidOid; decide) params_null (.known (by decide)) (.rsa (by decide)) (by decide))
                | skip
              · rw [show isRsaPss 13 = true from rfl, if_pos rfl, pss5] at h
                cases h
                exact fin (by unfold ValidOid; decide) (params_full (pss_elem 1 32)) (pss5_is env) (.rsa (by decide)) (by decide)
              · rw [show isRsaPss 14 = true from rfl, if_pos rfl, pss6] at h
                cases h
                exact fin (by unfold ValidOid; decide) (params_full (pss_elem 2 48)) (pss6_is env) (.rsa (by decide)) (by decide)
              · rw [show isRsaPss 15 = true from rfl, if_pos rfl, pss7] at h
                cases h
                exact fin (by unfold ValidOid; decide) (params_full (pss_elem 3 64)) (pss7_is env) (.rsa (by decide)) (by decide)
            · unfold certSigDetails at hm
              simp only [List.mem_cons, Prod.mk.injEq, List.mem_nil_iff, or_false] at hm
              rcases hm with ⟨rfl, rfl, hk, rfl⟩ | ⟨rfl, rfl, hk, rfl⟩ | ⟨rfl, rfl, hk, rfl⟩ | ⟨rfl, rfl, hk, rfl⟩ | ⟨rfl, rfl, hk, rfl⟩ | ⟨rfl, rfl, hk, rfl⟩ | ⟨rfl, rfl, hk, rfl⟩ |
                ⟨rfl, rfl, hk, rfl⟩ | ⟨rfl, rfl, hk, rfl⟩ | ⟨rfl, rfl, hk, rfl⟩ | ⟨rfl, rfl, hk, rfl⟩ | ⟨rfl, rfl, hk, rfl⟩ | ⟨rfl, rfl, hk, rfl⟩ | ⟨rfl, rfl, hk, rfl⟩ |
                ⟨rfl, rfl, hk, rfl⟩ | ⟨rfl, rfl, hk, rfl⟩
              all_goals first
                | exact absurd rfl h2
                | (cases hk; done)
                | (cases h
                   rw [hp]
                   exact fin (by unfold ValidOid; decide) params_none (.known (by decide)) (.ecdsa (by decide)) (by decide))

theorem signing_no_panic {pub : Key} {requested : Nat} (p : Panic) : signingParams pub requested ≠ .error p := by
  intro h
  unfold signingParams at h
  cases hd : defaultSigning pub with
  | error e => rw [hd] at h; cases h
  | ok r =>
    rw [hd] at h
    dsimp only at h
    split at h
    · cases h
    · split at h
      · cases h
      · next d hf =>
        split at h
        · cases h
        · split at h
          · cases h
          · split at h
            · next hp =>
              have hp : requested = 13 ∨ requested = 14 ∨ requested = 15 := by simpa [isRsaPss, or_assoc] using hp
              have hd' : d.2.2.2 = 5 ∨ d.2.2.2 = 6 ∨ d.2.2.2 = 7 := by
                rcases hp with rfl | rfl | rfl
                · exact .inl (congrArg (fun d => d.2.2.2) (Option.some.inj hf)).symm
                · exact .inr (.inl (congrArg (fun d => d.2.2.2) (Option.some.inj hf)).symm)
                · exact .inr (.inr (congrArg (fun d => d.2.2.2) (Option.some.inj hf)).symm)
              rcases hd' with e | e | e
              · rw [e, pss5] at h; cases h
              · rw [e, pss6] at h; cases h
              · rw [e, pss7] at h; cases h
            · cases h

/-! ## Keys, names, extensions -/

theorem aligned_whole (b : Bytes) : Aligned (wholeBits b) b := by
  refine aligned_iff.2 ?_
  unfold rightAlign wholeBits
  dsimp only
  rw [if_pos (.inl (by omega))]

theorem key_reads {env : CreateEnv} {rp : List Nat → Bytes → Option (Int × Int)} {pub : Key} (hk : KeyReadable env rp pub) {keyBytes : Bytes} {keyAlg : AlgId}
    (h : marshalPublicKey env pub = .ok (keyBytes, keyAlg)) :
    ∃ pk, ValidOid keyAlg.oid ∧ ParamsRead keyAlg.params pk ∧ (keyBytes.length < 2 ^ 31 → KeyIs ⟨env.asn, rp⟩ keyAlg.oid pk (wholeBits keyBytes) pub false) := by
  cases hk with
  | @rsa n e hn he hi =>
    unfold marshalPublicKey at h
    dsimp only at h
    cases hm : marshal env.mar pkcs1PublicKeyTy (([] : Bytes), (some n : Option Int), e, ()) with
    | error er => rw [hm] at h; cases h
    | ok b =>
      rw [hm] at h
      cases h
      refine ⟨nullRead, by unfold ValidOid; decide, params_null, fun hl => ?_⟩
      refine .rsa (aligned_whole _) ?_ hn he
      unfold marshal at hm
      rw [mp_empty] at hm
      obtain ⟨c, h', rfl⟩ := struct_ok (fs := .cons [] .bigInt (.cons [] .int .nil)) [] ((some n : Option Int), e, ()) hm
      obtain ⟨x, xs, h1, h2, rfl⟩ := cons_ok (t := .bigInt) (fs := .cons [] .int .nil) (some n : Option Int) (e, ()) h'
      obtain ⟨y, ys, h3, h4, rfl⟩ := cons_ok (t := .int) (fs := .nil) e () h2
      obtain rfl := nil_ok _ h4
      rw [mp_empty] at h1 h3
      obtain rfl := big_ok _ h1
      obtain rfl := int_ok (.inl rfl) _ h3
      rw [List.append_nil] at hl ⊢
      have l1 := Nat.lt_of_le_of_lt (tlv_length 0 16 true _) hl
      have l2 := l1
      rw [List.length_append] at l2
      have l3 := tlv_length 0 2 false (encodeBigInt n)
      have hE := tlv_elem (cls := 0) (tag := 16) (con := true) (by decide) (by decide) l1
      have := reads_struct (env := env.asn) (raw := false) (fs := .cons [] .bigInt (.cons [] .int .nil)) (hE.located rfl (present_plain (t := pkcs1PublicKeyTy) plain0 rfl) [])
        (v := ((some n : Option Int), e, ())) (readsAll_cons.2 ⟨_, by rw [fp_empty]; exact reads_big plain0 (bigElem_written (by omega)) _,
          readsAll_cons.2 ⟨[], by
              rw [fp_empty]
              have := reads_int (env := env.asn) plain0 hi (intElem_written hi) []
              rwa [List.append_nil] at this, readsAll_nil⟩⟩)
      rw [List.append_nil] at this
      exact this
  | @ecdsa c x y hp =>
    unfold marshalPublicKey at h
    dsimp only at h
    by_cases hc : knownCurve c = true
    · rw [if_pos hc] at h
      have hc := knownCurve_iff.1 hc
      have key : ∀ {o : Bytes}, ValidOid c → encodeOid c = .ok o → o.length < 2 ^ 31 →
          ∃ pk, ValidOid keyAlg.oid ∧ ParamsRead keyAlg.params pk ∧ (keyBytes.length < 2 ^ 31 → KeyIs ⟨env.asn, rp⟩ keyAlg.oid pk (wholeBits keyBytes) (.ecdsa c x y) false) := by
        intro o hv ho hl
        cases hm : marshal env.mar .oid c with
        | error er => rw [hm] at h; cases h
        | ok b =>
          rw [hm] at h
          cases h
          unfold marshal at hm
          rw [mp_empty] at hm
          obtain ⟨o', h1, rfl⟩ := oid_ok c hm
          rw [ho] at h1
          cases h1
          obtain ⟨oc, hoc, hoe⟩ := oidElem_written hv ho hl
          exact ⟨_, (by unfold ValidOid; decide : ValidOid [1,2,840,10045,2,1]), params_full hoe, fun _ => .ecdsa (aligned_whole _) ⟨oc, hoc, hoe⟩ hc hp⟩
      unfold supportedCurves at hc
      simp only [List.mem_cons, List.mem_nil_iff, or_false] at hc
      rcases hc with rfl | rfl | rfl | rfl
      · exact key (o := [43, 129, 4, 0, 33]) (by unfold ValidOid; decide) (by with_unfolding_all rfl) (by decide)
      · exact key (o := [42, 134, 72, 206, 61, 3, 1, 7]) (by unfold ValidOid; decide) (by with_unfolding_all rfl) (by decide)
      · exact key (o := [43, 129, 4, 0, 34]) (by unfold ValidOid; decide) (by with_unfolding_all rfl) (by decide)
      · exact key (o := [43, 129, 4, 0, 35]) (by unfold ValidOid; decide) (by with_unfolding_all rfl) (by decide)
    · rw [if_neg hc] at h; cases h

theorem subject_bytes {env : CreateEnv} {t : CertTemplate} {b : Bytes} : subjectBytes env t = .ok b ↔ SubjectBytes env t b := by
  unfold subjectBytes SubjectBytes
  by_cases h : t.rawSubject = []
  · rw [if_neg (by simp [h])]
    simp [h]
  · have : t.rawSubject.length > 0 := List.length_pos_iff.2 h
    rw [if_pos this]
    simp [h, eq_comm]

theorem ids_valid {env : AsnEnv} {t : ExtFields} {key : Bytes} {extra exts : List Ext} (h : buildExtensions env t key extra = .ok (some exts))
    (hx : ∀ e ∈ extra, ValidOid e.1) : ∀ e ∈ exts, ValidOid e.1 := by
  have hw := C86_which h
  intro e he
  have : (e.1, e.2.1) ∈ exts.map (fun e => (e.1, e.2.1)) := List.mem_map.2 ⟨e, he, rfl⟩
  rw [hw, List.mem_append] at this
  rcases this with this | this
  · unfold writtenExts at this
    obtain ⟨w, h1, h2⟩ := List.mem_map.1 this
    have h3 := (List.mem_filter.1 h1).1
    have h4 : w.1 = e.1 := congrArg Prod.fst h2
    rw [← h4]
    unfold wantedExts at h3
    simp only [List.mem_cons, List.mem_nil_iff, or_false] at h3
    rcases h3 with rfl | rfl | rfl | rfl | rfl | rfl | rfl | rfl | rfl | rfl <;> (dsimp only; unfold ValidOid; decide)
  · obtain ⟨w, h1, h2⟩ := List.mem_map.1 this
    have h4 : w.1 = e.1 := congrArg (fun x : List Nat × Bool => x.1) h2
    exact h4 ▸ hx w h1

theorem fields_append {env : AsnEnv} : ∀ {l r : List (Bytes × List Nat × Bool × Bytes × Unit)} {s f : ExtFields}, extFieldsLoop env l s = .ok (some f) →
    extFieldsLoop env (l ++ r) s = extFieldsLoop env r f
  | [], r, s, f, h => by
    cases h
    rfl
  | e :: l, r, s, f, h => by
    rw [List.cons_append]
    rw [extFieldsLoop] at h ⊢
    rcases hs : extFieldsStep env s e.2.1 e.2.2.1 e.2.2.2.1 with p | _ | ⟨s', u⟩
    · rw [hs] at h; cases h
    · rw [hs] at h; cases h
    · rw [hs] at h
      exact fields_append h

/-- Extensions that are not understood only leave their identifiers, if they are critical. -/
theorem fields_unknown {env : AsnEnv} : ∀ {extra : List Ext} {s : ExtFields}, (∀ e ∈ extra, e.1 ∉ understoodExts) →
    extFieldsLoop env (extra.map Ext.parsed) s = .ok (some { s with unhandled := s.unhandled ++ (extra.filter (fun e => e.2.1)).map (fun e => e.1) })
  | [], s, _ => by
    show Except.ok (some s) = _
    rw [List.filter_nil, List.map_nil, List.append_nil]
  | e :: extra, s, h => by
    have he := h e List.mem_cons_self
    unfold understoodExts at he
    simp only [List.mem_cons, List.not_mem_nil, or_false, not_or] at he
    obtain ⟨n1, n2, n3, n4, n5, n6, n7, n8, n9, n10⟩ := he
    have hstep : extFieldsStep env s e.1 e.2.1 e.2.2 = .ok (some (s, true)) := by
      unfold extFieldsStep
      rw [if_neg n1, if_neg n2, if_neg n3, if_neg n4, if_neg n5, if_neg n6, if_neg n7, if_neg n8, if_neg n9, if_neg n10]
    rw [List.map_cons, extFieldsLoop]
    have hstep : extFieldsStep env s e.parsed.2.1 e.parsed.2.2.1 e.parsed.2.2.2.1 = .ok (some (s, true)) := hstep
    have hc : e.parsed.2.2.1 = e.2.1 := rfl
    have hi : e.parsed.2.1 = e.1 := rfl
    rw [hstep]
    dsimp only
    rw [hc, hi]
    rw [fields_unknown (fun e' he' => h e' (List.mem_cons_of_mem _ he'))]
    by_cases hc : e.2.1 = true
    · have e1 : (e :: extra).filter (fun e => e.2.1) = e :: extra.filter (fun e => e.2.1) := List.filter_cons_of_pos hc
      rw [e1, hc]
      simp
    · have hc' : e.2.1 = false := by simpa using hc
      have e1 : (e :: extra).filter (fun e => e.2.1) = extra.filter (fun e => e.2.1) := List.filter_cons_of_neg hc
      rw [e1, hc']
      simp

theorem unless_unknown {t : ExtFields} {extra : List Ext} (h : ∀ e ∈ extra, e.1 ∉ understoodExts) : t.unlessIn extra = t := by
  have no : ∀ id ∈ understoodExts, id ∉ extra.map Prod.fst := by
    intro id hi hm
    obtain ⟨e, he, rfl⟩ := List.mem_map.1 hm
    exact h e he hi
  unfold ExtFields.unlessIn
  dsimp only
  rw [if_neg (no [2,5,29,15] (by decide)), if_neg (no [2,5,29,37] (by decide)), if_neg (no [2,5,29,37] (by decide)), if_neg (no [2,5,29,19] (by decide)),
    if_neg (no [2,5,29,14] (by decide)), if_neg (no [1,3,6,1,5,5,7,1,1] (by decide)), if_neg (no [1,3,6,1,5,5,7,1,1] (by decide)),
    if_neg (no [2,5,29,17] (by decide)), if_neg (no [2,5,29,17] (by decide)), if_neg (no [2,5,29,17] (by decide)), if_neg (no [2,5,29,32] (by decide)),
    if_neg (no [2,5,29,30] (by decide)), if_neg (no [2,5,29,30] (by decide)), if_neg (no [2,5,29,31] (by decide))]

/-- What is read of the extensions of a template with extra ones that are not understood. -/
theorem exts_with_unknown {env : AsnEnv} {t : ExtFields} {key : Bytes} {extra exts : List Ext} (h : buildExtensions env t key extra = .ok (some exts))
    (hf : TemplateFits t) (hx : ∀ e ∈ extra, e.1 ∉ understoodExts) (hl : ∀ e ∈ exts, e.2.2.length < 2 ^ 31) :
    extFieldsLoop env (exts.map Ext.parsed) {} = .ok (some { templateSays t key with unhandled := (extra.filter (fun e => e.2.1)).map (fun e => e.1) }) := by
  obtain ⟨w, rfl, hw⟩ := C86_template_read_back h hf hl
  rw [unless_unknown hx] at hw
  have hno : [2,5,29,35] ∉ extra.map Prod.fst := by
    intro hm
    obtain ⟨e, he, e1⟩ := List.mem_map.1 hm
    exact hx e he (e1 ▸ (by decide : [2,5,29,35] ∈ understoodExts))
  rw [if_neg hno] at hw
  rw [List.map_append, fields_append hw, fields_unknown hx]
  rfl

end Crc
end Apk
