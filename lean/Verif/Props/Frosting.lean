import Verif.Proofs.Frosting
import Verif.Props.Verdict
/-! # Google Play frosting (C33, C34) -/
namespace Apk

/-! ## C33 -/

/-- C33: every size below 2^31, encoded as a varint, is decoded to itself, and exactly the bytes of the encoding are
    consumed. -/
theorem C33_varint_roundtrip (n : Nat) (h : n < 2 ^ 31) (rest : Bytes) : frVarint (varint n ++ rest) = .ok ((n : Int), rest) :=
  (frVarint_iff _ _ _).2 ⟨varint n, rfl, isVarint_varint h⟩

/-- C33: decoding succeeds exactly on inputs that start with a varint of at most five bytes; the value is the one it
    stands for modulo 2^32 as a signed number, and nothing else is consumed. In particular nothing is read beyond the
    input. -/
theorem C33_varint_iff (b : Bytes) (n : Int) (rest : Bytes) :
    frVarint b = .ok (n, rest) ↔ ∃ v, b = v ++ rest ∧ IsVarint v n := frVarint_iff b n rest

/-- C33: five bytes with the continuation bit are an error, whatever follows. -/
theorem C33_too_long (v rest : Bytes) (h : v.length = 5) (hc : ∀ x ∈ v, 128 ≤ x.toNat) : ∃ e, frVarint (v ++ rest) = .error e := by
  cases hv : frVarint (v ++ rest) with
  | error e => exact ⟨e, rfl⟩
  | ok x =>
    exfalso
    obtain ⟨n, r⟩ := x
    obtain ⟨w, h1, i, l, rfl, h2, h3, h4, _⟩ := (frVarint_iff _ _ _).1 hv
    have hlen : (i ++ [l]).length ≤ v.length := by simp; omega
    have hp : i ++ [l] <+: v := List.prefix_of_prefix_length_le ⟨r, h1.symm⟩ ⟨rest, rfl⟩ hlen
    have := hc l (hp.subset (by simp))
    omega

/-- C33: an input that ends inside a varint is an error. -/
theorem C33_truncated (v : Bytes) (hc : ∀ x ∈ v, 128 ≤ x.toNat) : ∃ e, frVarint v = .error e := by
  cases hv : frVarint v with
  | error e => exact ⟨e, rfl⟩
  | ok x =>
    exfalso
    obtain ⟨n, r⟩ := x
    obtain ⟨w, h1, i, l, rfl, h2, h3, h4, _⟩ := (frVarint_iff _ _ _).1 hv
    have := hc l (by rw [h1]; simp)
    omega

/-- C33: looking up an array item gives exactly the bytes of that item, and succeeds exactly if the array has it. -/
theorem C33_array_item_iff (pre a : Bytes) (i : Nat) (item : Bytes) :
    frArrayItem (pre ++ a) pre.length i = .ok item ↔ ArrayItem a i item := frArrayItem_iff pre a i item

/-- C33: every item of an encoded array is found. -/
theorem C33_array_roundtrip (pre : Bytes) (items : List Bytes) (i : Nat) (x rest : Bytes) (hi : items[i]? = some x) (hx : x ≠ [])
    (hs : ((items.map framedItem).flatten).length < 2 ^ 31) :
    frArrayItem (pre ++ (varint ((items.map framedItem).flatten).length ++
      (items.map framedItem).flatten ++ rest)) pre.length i = .ok x := by
  rw [frArrayItem_iff]
  obtain ⟨hlt, hget⟩ := List.getElem?_eq_some_iff.1 hi
  have hsplit : items = items.take i ++ x :: items.drop (i + 1) := by
    rw [← hget, List.getElem_cons_drop, List.take_append_drop]
  have hfl : (items.map framedItem).flatten =
      ((items.take i).map framedItem).flatten ++ framedItem x ++
        ((items.drop (i + 1)).map framedItem).flatten := by
    conv => lhs; rw [hsplit]
    simp
  have hmem : ∀ y ∈ items, y.length < 2 ^ 31 := by
    intro y hy
    refine Nat.lt_of_le_of_lt ?_ hs
    have : framedItem y ∈ items.map framedItem := List.mem_map.2 ⟨y, hy, rfl⟩
    have := (List.sublist_flatten_of_mem this).length_le
    have h2 : (framedItem y).length = (varint y.length).length + y.length := List.length_append
    omega
  refine ⟨_, (items.take i).map framedItem, varint x.length,
    ((items.drop (i + 1)).map framedItem).flatten ++ rest, _, ?_, isVarint_varint hs, ?_, ?_, ?_, ?_, ?_, ?_⟩
  · conv => lhs; rw [hfl]
    conv => rhs; rw [hfl]
    simp only [List.append_assoc, framedItem]
  · rw [List.length_map, List.length_take]; omega
  · intro e he
    obtain ⟨y, hy, rfl⟩ := List.mem_map.1 he
    exact ⟨_, _, rfl, isVarint_varint (hmem y (List.mem_of_mem_take hy))⟩
  · exact isVarint_varint (hmem x (List.mem_of_getElem? hi))
  · rw [hfl]; unfold framedItem; simp only [List.length_append]; omega
  · simp only [List.length_append]; omega
  · intro hh; exact hx (List.append_eq_nil_iff.1 hh).1

example : frArrayItem ([9] ++ (varint 7 ++ ([1, 10] ++ [2, 20, 21] ++ [1, 30]) ++ [0])) 1 1 = .ok [20, 21] := by
  have : varint 7 = [7] := by rw [varint]; rfl
  rw [this]; decide

/-- Caveat: the fifth byte is not restricted to the four bits that fit; with a larger one the sign bit is set, so sizes can
    come out negative. -/
theorem C33_negative_value : frVarint [0x80, 0x80, 0x80, 0x80, 0x08] = .ok (-2147483648, []) := by decide +kernel

/-! ## C34 -/

/-- C34: the frosting block parser accepts exactly the blocks of the specified layout that are signed with the pinned
    key, and reports the signed digest and protobuf. -/
theorem C34_parse_iff (env : Env) (block : Bytes) (info : FrostInfo) :
    (∃ fr, frParse env block = .ok fr ∧ fr.info = .ok info) ↔ FrostValid env block info.fileSha256 info.protobufInfo :=
  frParse_iff env block info

section
variable {env : Env} {file head area cd rec : Bytes} (hl : ApkLayout file head area cd rec)
include hl

/-- The file digest. -/
theorem frVerifyApk_iff (info : FrostInfo) (v2 : Option Bytes) :
    frVerifyApk env info file (layoutFound head area cd rec).sigOff v2 (layoutFound head area cd rec).loc.cdOff
      (layoutFound head area cd rec).loc.cdSize (layoutFound head area cd rec).loc.eocd = none ↔
      info.fileSha256 = env.sha256 (frostingInput head cd rec v2) := by
  unfold frVerifyApk layoutFound
  simp only
  have hlen := congrArg List.length hl.split
  simp only [List.length_append] at hlen
  rw [frSection_eq file _ _ _ (Nat.lt_succ_self _) (by omega)]
  simp only
  rw [frSection_eq file _ _ _ (Nat.lt_succ_self _) (by simp only [List.length_append]; omega)]
  simp only
  have e1 : slice file 0 head.length = head := by
    unfold slice; rw [hl.split]; simp
  have e2 : slice file (head ++ sigBlock area).length cd.length = cd := by
    unfold slice; rw [hl.split, List.append_assoc (head ++ sigBlock area), List.drop_left]; simp
  rw [e1, e2]
  have key : ∀ x : Bytes, x = frostingInput head cd rec v2 →
      ((if env.sha256 x = info.fileSha256 then none else some FE.digestMismatch) = none ↔
        info.fileSha256 = env.sha256 (frostingInput head cd rec v2)) := by
    rintro x rfl
    constructor
    · intro h
      split at h
      · rename_i h'; exact h'.symm
      · cases h
    · intro h; rw [if_pos h.symm]
  apply key
  unfold frostingInput redirected eocdPatched
  cases v2 with
  | none => rfl
  | some b =>
    cases b with
    | nil => rfl
    | cons x xs => rfl

omit hl in
theorem frosting_v2 {maxSdk : Int} {ps blocks extra : List (Nat × Bytes)} (hm : Means ps maxSdk blocks extra) :
    (match mget blocks blockIdSchemeV2 with
      | some b => some b
      | none => mget extra blockIdSchemeV2) = lastVal ps idV2 := by
  rw [hm.blocks, hm.extra]
  have h2 : blockIdSchemeV2 = idV2 := rfl
  rw [h2]
  by_cases h : 24 ≤ maxSdk
  · rw [if_pos (show usedId idV2 maxSdk from Or.inl ⟨rfl, h⟩)]
    cases hc : lastVal ps idV2 with
    | some b => rfl
    | none => simp
  · rw [if_neg (show ¬ usedId idV2 maxSdk by simp [usedId, idV2]; omega),
      if_pos (show extraId idV2 maxSdk by simp [extraId, idV2]; omega)]

/-- C34: if the frosting result of an APK has no error, the last frosting entry of its signing block is signed with the
    pinned key, and the signed digest is the SHA-256 of the file without the signing block and with the v2 block. -/
theorem C34_frosting_sound {zip : Zip} {minSdk maxSdk : Int} {out : Outcome} {res : VRes} {f : FrostRes} {ps : List (Nat × Bytes)}
    (ha : PairArea area ps) (h : verifySigningBlock env zip file minSdk maxSdk = .ok out) (hres : out.res = some res)
    (hf : res.frosting = some f) (he : f.error = none) :
    ∃ v, (frostingValues ps).getLast? = some v ∧
      FrostValid env v (env.sha256 (frostingInput head cd rec (lastVal ps idV2))) f.protobufInfo := by
  rcases located_inv hl h with ⟨e, h1, hn⟩ | ⟨_, st, q, r, v3, dg, stamp, fr, _, hpp, _, _, _, _, hfr, hr, _⟩
  · exact absurd ha (hn ps)
  · rw [hres] at hr
    cases hr
    simp only at hf
    obtain ⟨ps', ha', hrun⟩ := parsePairsAux_sound _ (Nat.lt_succ_self _) hpp
    have hmn : Means ps' maxSdk st.blocks st.extra := ⟨fun id => by rw [hrun.blocks id]; simp, fun id => by rw [hrun.extra id]; simp⟩
    obtain ⟨frs, f1, f2, f3, _⟩ := hrun.frosting
    rw [hf] at hfr
    unfold frostingResult at hfr
    simp only [Option.or_none] at f2 f3
    have f2' : st.frosting = frs.getLast? := by simpa using f2
    have f3' : st.frostingRes = (frs.filterMap (fun fr => fr.info.toOption)).getLast? := by simpa using f3
    cases hfo : st.frosting with
    | none => rw [hfo] at hfr; cases hfr
    | some fp =>
      rw [hfo] at hfr
      simp only at hfr
      obtain ⟨ini, hini⟩ : ∃ ini, frs = ini ++ [fp] := by
        rw [hfo] at f2'
        exact List.getLast?_eq_some_iff.1 f2'.symm
      cases hi : fp.info with
      | error e =>
        rw [hi] at hfr
        cases hc : st.frostingRes <;> rw [hc] at hfr <;> simp only [Option.some.injEq] at hfr <;> subst hfr <;> cases he
      | ok info =>
        have hres' : st.frostingRes = some info := by
          rw [f3', hini]; simp [hi, Except.toOption]
        rw [hi, hres'] at hfr
        simp only [Option.some.injEq] at hfr
        subst hfr
        simp only at he ⊢
        have hd := (frVerifyApk_iff hl info _).1 ((congrArg (fun v => frVerifyApk env info file (layoutFound head area cd rec).sigOff v
          (layoutFound head area cd rec).loc.cdOff (layoutFound head area cd rec).loc.cdSize
          (layoutFound head area cd rec).loc.eocd) (frosting_v2 hmn)).symm.trans he)
        have hlast : ∃ v, (frostingValues ps').getLast? = some v ∧ frParse env v = .ok fp := by
          have hl2 : ((frostingValues ps').map (frParse env)).getLast? = some (.ok fp) := by
            rw [f1, hini]; simp
          rw [List.getLast?_map] at hl2
          obtain ⟨v, h1, h2⟩ := Option.map_eq_some_iff.1 hl2
          exact ⟨v, h1, h2⟩
        obtain ⟨v, h1, h2⟩ := hlast
        obtain rfl := pairArea_unique ha ha'
        refine ⟨v, h1, ?_⟩
        rw [← hd]
        exact (frParse_iff env v info).1 ⟨fp, h2, hi⟩

/-- C34, converse: a file whose last frosting entry is signed with the pinned key and has the right digest gets a frosting
    result without error (when verification returns at all). -/
theorem C34_frosting_complete {zip : Zip} {minSdk maxSdk : Int} {out : Outcome} {ps : List (Nat × Bytes)} {v proto : Bytes}
    (ha : PairArea area ps) (h : verifySigningBlock env zip file minSdk maxSdk = .ok out)
    (hv1 : (frostingValues ps).getLast? = some v)
    (hv2 : FrostValid env v (env.sha256 (frostingInput head cd rec (lastVal ps idV2))) proto) :
    ∃ res f, out.res = some res ∧ res.frosting = some f ∧ f.error = none ∧ f.keyUsed = true ∧ f.protobufInfo = proto := by
  rcases located_inv hl h with ⟨e, h1, hn⟩ | ⟨_, st, q, r, v3, dg, stamp, fr, _, hpp, _, _, _, _, hfr, hr, _⟩
  · exact absurd ha (hn ps)
  · obtain ⟨ps', ha', hrun⟩ := parsePairsAux_sound _ (Nat.lt_succ_self _) hpp
    have hmn : Means ps' maxSdk st.blocks st.extra := ⟨fun id => by rw [hrun.blocks id]; simp, fun id => by rw [hrun.extra id]; simp⟩
    obtain ⟨frs, f1, f2, f3, _⟩ := hrun.frosting
    have f2' : st.frosting = frs.getLast? := by simpa using f2
    have f3' : st.frostingRes = (frs.filterMap (fun fr => fr.info.toOption)).getLast? := by simpa using f3
    obtain rfl := pairArea_unique ha ha'
    obtain ⟨fp, hp1, hp2⟩ := (frParse_iff env v ⟨env.sha256 (frostingInput head cd rec (lastVal ps idV2)), proto⟩).2 hv2
    have hfp : frs.getLast? = some fp := by
      have hl2 : ((frostingValues ps).map (frParse env)).getLast? = some (.ok fp) := by
        rw [List.getLast?_map, hv1]; simp [hp1]
      rw [f1, List.getLast?_map] at hl2
      obtain ⟨x, h1, h2⟩ := Option.map_eq_some_iff.1 hl2
      cases h2; exact h1
    obtain ⟨ini, hini⟩ : ∃ ini, frs = ini ++ [fp] := List.getLast?_eq_some_iff.1 hfp
    have hfo : st.frosting = some fp := by rw [f2', hfp]
    have hres' : st.frostingRes = some ⟨env.sha256 (frostingInput head cd rec (lastVal ps idV2)), proto⟩ := by
      rw [f3', hini]; simp [hp2, Except.toOption]
    have hk : fp.keyUsed = true := frParse_keyUsed hp1 hp2
    refine ⟨_, ⟨fp.keyUsed, none, proto⟩, hr, ?_, rfl, hk, rfl⟩
    simp only
    rw [hfr]
    unfold frostingResult
    rw [hfo]
    simp only
    rw [hp2, hres']
    simp only
    exact congrArg (fun e => some (FrostRes.mk fp.keyUsed e proto)) ((congrArg (fun v => frVerifyApk env ⟨_, proto⟩ file (layoutFound head area cd rec).sigOff v
          (layoutFound head area cd rec).loc.cdOff (layoutFound head area cd rec).loc.cdSize
          (layoutFound head area cd rec).loc.eocd) (frosting_v2 hmn)).trans ((frVerifyApk_iff hl _ _).2 rfl))

end

namespace Toy

/-- What the enabled metadata entry vouches for in the toy APK without v2 block. -/
def frostDigest : Bytes := env.sha256 (frostingInput head cdir (eocd cdir.length 0) none)

/-- The signed part: protobuf `[5, 6]`, one disabled and one enabled entry. -/
def frostSigned : Bytes := [2, 5, 6, 38, 2, 1, 9, 34, 0, 0] ++ frostDigest

/-- A frosting block signed by the pinned key. -/
def frostBlock : Bytes :=
  [42] ++ frostSigned ++ [6] ++ [1, 0] ++ [2, (env.sha256 frostSigned).headD 0, 1] ++ [0]

/-- An APK with a frosting block only. -/
def psFrosted : List (Nat × Bytes) := [(0x2146444e, frostBlock)]

end Toy

/-- The hypotheses of the C34 theorems are met. -/
example : ∃ out res f, Toy.run Toy.psFrosted 24 35 = .ok out ∧ out.res = some res ∧ res.frosting = some f ∧ f.error = none ∧
    f.protobufInfo = [5, 6] ∧ PairArea (encPairs Toy.psFrosted) Toy.psFrosted ∧
    ∃ rec, ApkLayout (Toy.apkOf Toy.psFrosted) Toy.head (encPairs Toy.psFrosted) Toy.cdir rec := by
  obtain ⟨out, h1, h2⟩ := Toy.of_check (x := Toy.run Toy.psFrosted 24 35)
    (P := fun o => match o.res with
      | none => false
      | some r => match r.frosting with
        | none => false
        | some f => decide (f.error = none) && decide (f.protobufInfo = [5, 6])) (by decide +kernel)
  split at h2
  · cases h2
  · rename_i r hr
    split at h2
    · cases h2
    · rename_i f hf
      simp only [Bool.and_eq_true, decide_eq_true_eq] at h2
      exact ⟨out, r, f, h1, hr, hf, h2.1, h2.2, Toy.area_of (by decide +kernel) (by decide +kernel), _,
        Toy.apkOf_layout Toy.psFrosted (by decide +kernel) (by unfold Zip64Before; decide +kernel)⟩

end Apk
