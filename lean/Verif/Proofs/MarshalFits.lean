import Verif.Proofs.Marshal
/-! # Showing that a value fits -/
namespace Apk
namespace Mar

/-- The condition on a leaf is the whole condition. -/
theorem fits_of_leaf {env : AsnEnv} {menv : MarEnv} {t : Ty} (hl : IsLeaf t) {mp : MP} {v : t.interp} {rest : Bytes}
    (h : if Ty.omits mp t v then Absent t mp.toFP rest else mp.Symmetric ∧ LeafFits env menv mp t v) : Fits env menv t mp v rest := by
  obtain ⟨h1, h2, h3, h4⟩ := hl
  cases t
  case any => exact absurd rfl h1
  case rawValue => exact absurd rfl h2
  case struct r fs => exact absurd rfl (h3 r fs)
  case slice s e => exact absurd rfl (h4 s e)
  all_goals (rw [Fits]; exact h; all_goals simp)

theorem fits_leaf_intro {env : AsnEnv} {menv : MarEnv} {t : Ty} (hl : IsLeaf t) {mp : MP} {v : t.interp} {rest : Bytes}
    (ho : Ty.omits mp t v = false) (hs : mp.Symmetric) (h : LeafFits env menv mp t v) : Fits env menv t mp v rest := by
  refine fits_of_leaf hl ?_
  rw [ho]; exact ⟨hs, h⟩

theorem fits_leaf_absent {env : AsnEnv} {menv : MarEnv} {t : Ty} (hl : IsLeaf t) {mp : MP} {v : t.interp} {rest : Bytes}
    (ho : Ty.omits mp t v = true) (h : Absent t mp.toFP rest) : Fits env menv t mp v rest := by
  refine fits_of_leaf hl ?_
  rw [ho]; exact h

theorem fits_raw_intro {env : AsnEnv} {menv : MarEnv} {mp : MP} (v : Ty.rawValue.interp) {rest : Bytes}
    (ho : Ty.omits mp .rawValue v = false) (h : RawFits mp.toFP v rest) : Fits env menv .rawValue mp v rest := by
  rw [Fits, ho]; exact h

theorem fits_struct_intro {env : AsnEnv} {menv : MarEnv} {raw : Bool} {fs : Fields} {mp : MP} (v : (Ty.struct raw fs).interp) {rest : Bytes}
    (ho : Ty.omits mp (.struct raw fs) v = false) (hs : mp.Symmetric) (hr : raw = false ∨ v.1 = []) (h : FitsAll env menv fs v.2) :
    Fits env menv (.struct raw fs) mp v rest := by
  rw [Fits, ho]
  refine ⟨hs, ?_⟩
  rw [if_neg]
  · exact h
  · rintro ⟨h1, h2⟩
    rcases hr with h | h
    · rw [h] at h1; cases h1
    · exact h2 h

theorem fits_struct_raw {env : AsnEnv} {menv : MarEnv} {fs : Fields} {mp : MP} (v : (Ty.struct true fs).interp) {rest : Bytes}
    (ho : Ty.omits mp (.struct true fs) v = false) (hs : mp.Symmetric) (hr : v.1 ≠ [])
    (h : ∃ hdr tl content, v.1 = hdr ++ content ∧ DerHeader tl hdr ∧ ReadsAll env fs v.2 content) :
    Fits env menv (.struct true fs) mp v rest := by
  rw [Fits, ho]
  refine ⟨hs, ?_⟩
  rw [if_pos ⟨rfl, hr⟩]
  exact h

theorem fits_struct_absent {env : AsnEnv} {menv : MarEnv} {raw : Bool} {fs : Fields} {mp : MP} (v : (Ty.struct raw fs).interp) {rest : Bytes}
    (ho : Ty.omits mp (.struct raw fs) v = true) (h : Absent (.struct raw fs) mp.toFP rest) : Fits env menv (.struct raw fs) mp v rest := by
  rw [Fits, ho]; exact h

theorem fits_slice_intro {env : AsnEnv} {menv : MarEnv} {s : Bool} {e : Ty} {mp : MP} (v : (Ty.slice s e).interp) {rest : Bytes}
    (ho : Ty.omits mp (.slice s e) v = false) (hs : mp.Symmetric) (he : e ≠ .any) (h : ∀ x : e.interp, List.Mem x v → ∀ r, Fits env menv e {} x r) :
    Fits env menv (.slice s e) mp v rest := by
  rw [Fits, ho]
  exact ⟨hs, he, allOf_mem.2 h⟩

theorem fits_slice_absent {env : AsnEnv} {menv : MarEnv} {s : Bool} {e : Ty} {mp : MP} (v : (Ty.slice s e).interp) {rest : Bytes}
    (ho : Ty.omits mp (.slice s e) v = true) (h : Absent (.slice s e) mp.toFP rest) : Fits env menv (.slice s e) mp v rest := by
  rw [Fits, ho]; exact h

theorem fitsAll_cons {env : AsnEnv} {menv : MarEnv} {tag : Bytes} {t : Ty} {fs : Fields} (v : (Fields.cons tag t fs).interp)
    (h : ∀ rest, makeFields menv fs v.2 = .ok rest → Fits env menv t (parseMP tag) v.1 rest) (hs : FitsAll env menv fs v.2) :
    FitsAll env menv (.cons tag t fs) v := by
  rw [FitsAll]; exact ⟨h, hs⟩

theorem fitsAll_nil {env : AsnEnv} {menv : MarEnv} (v : Fields.nil.interp) : FitsAll env menv .nil v := by
  rw [FitsAll]; trivial

/-- A field that is neither optional nor `omitempty` is never left out. -/
theorem omits_required {mp : MP} (h : mp.optional = false) (he : mp.omitEmpty = false) (t : Ty) (v : t.interp) : Ty.omits mp t v = false := by
  rw [Ty.omits, h, he]; rfl

theorem omits_plain (t : Ty) (v : t.interp) : Ty.omits {} t v = false := omits_required rfl rfl t v

theorem symmetric_plain : ({} : MP).Symmetric := ⟨(by intro n h; cases h), (by intro h; cases h)⟩

/-! ## What is written, step by step -/

theorem make_struct {menv : MarEnv} {raw : Bool} {fs : Fields} {mp : MP} (v : (Ty.struct raw fs).interp) :
    makeField menv (.struct raw fs) mp v = fieldTagged mp (Ty.omits mp (.struct raw fs) v) 16 true (.ok 16) (fun _ =>
      if raw && decide (v.1 ≠ []) then .ok (stripHeader v.1) else makeFields menv fs v.2) := by rw [makeField]

theorem make_slice {menv : MarEnv} {s : Bool} {e : Ty} {mp : MP} (v : (Ty.slice s e).interp) :
    makeField menv (.slice s e) mp v = fieldTagged mp (Ty.omits mp (.slice s e) v) (if s then 17 else 16) true (.ok (if s then 17 else 16))
      (fun tag => (makeElems (makeField menv e {}) v).map (fun bs => if menv.sortSets && decide (tag = 17) then encodeSet bs else bs.flatten)) := by rw [makeField]

theorem makeFields_cons {menv : MarEnv} {tag : Bytes} {t : Ty} {fs : Fields} (v : (Fields.cons tag t fs).interp) :
    makeFields menv (.cons tag t fs) v = (do
      let b ← makeField menv t (parseMP tag) v.1
      let bs ← makeFields menv fs v.2
      return b ++ bs) := by rw [makeFields]

theorem makeFields_nil {menv : MarEnv} (v : Fields.nil.interp) : makeFields menv .nil v = .ok [] := by rw [makeFields]

theorem make_leaf {menv : MarEnv} {t : Ty} (hl : IsLeaf t ∨ t = .rawValue) {mp : MP} (v : t.interp) : makeField menv t mp v = makePrim menv mp t v := by
  rcases hl with ⟨h1, h2, h3, h4⟩ | rfl
  · cases t
    case any => exact absurd rfl h1
    case struct r fs => exact absurd rfl (h3 r fs)
    case slice s e => exact absurd rfl (h4 s e)
    all_goals (rw [makeField]; all_goals simp)
  · rw [makeField]; all_goals simp

theorem make_raw {menv : MarEnv} {mp : MP} (v : Ty.rawValue.interp) (ho : Ty.omits mp .rawValue v = false) : makeField menv .rawValue mp v = .ok (rawBytes v) := by
  rw [make_leaf (.inr rfl), makePrim, ho]; rfl

end Mar
end Apk
