import Verif.Proofs.Verdict
import Verif.Proofs.Binding
/-! # Binding of the file contents by the declared digests -/
namespace Apk
set_option linter.unusedSimpArgs false

/-- Facts about the record of a located APK. -/
theorem layout_facts {file head area cd rec : Bytes} (h : ApkLayout file head area cd rec) :
    head.length < 2 ^ 32 ∧ 0 < cd.length ∧ 22 ≤ rec.length ∧ rec.length ≤ 65557 ∧ cd.length < 2 ^ 32 := by
  obtain ⟨c, hc, _⟩ := h.eocd
  have h1 := h.cdRef.offLt
  have h2 := h.cdRef.nonEmptyGap
  have h3 := h.cdRef.sizeLt
  have h4 := hc.len
  have h5 := hc.small
  simp only [List.length_append] at h1 h2
  omega

theorem redirected_length {rec : Bytes} (h : 22 ≤ rec.length) (n : Nat) : (redirected rec n).length = rec.length := by
  unfold redirected
  simp only [List.length_append, List.length_take, leBytes_length, List.length_drop]
  omega

theorem redirected_offset {rec : Bytes} (h : 22 ≤ rec.length) (n : Nat) : ((redirected rec n).drop 16).take 4 = leBytes 4 n := by
  unfold redirected
  rw [List.append_assoc, List.drop_append_of_le_length (by simp; omega)]
  have : (rec.take 16).drop 16 = [] := by simp
  rw [this, List.nil_append, List.take_append_of_le_length (by simp)]
  exact List.take_of_length_le (by simp)

/-- Equal redirected records name equal offsets. -/
theorem redirected_inj_off {rec rec' : Bytes} (h : 22 ≤ rec.length) (h' : 22 ≤ rec'.length) {n n' : Nat} (hn : n < 2 ^ 32)
    (hn' : n' < 2 ^ 32) (he : redirected rec n = redirected rec' n') : n = n' := by
  have e := congrArg (fun b => (b.drop 16).take 4) he
  simp only [redirected_offset h, redirected_offset h'] at e
  exact leBytes_inj e (by omega) (by omega)

/-- Same records and same concatenation: same sections. -/
theorem sections_eq {head cd rec head' cd' rec' : Bytes} (h : 22 ≤ rec.length) (h' : 22 ≤ rec'.length)
    (hn : head.length < 2 ^ 32) (hn' : head'.length < 2 ^ 32) (hr : redirected rec head.length = redirected rec' head'.length)
    (hc : (signedSections head cd rec).flatten = (signedSections head' cd' rec').flatten) :
    head = head' ∧ cd = cd' ∧ redirected rec head.length = redirected rec' head'.length := by
  have hl := redirected_inj_off h h' hn hn' hr
  simp only [signedSections, List.flatten_cons, List.flatten_nil, List.append_nil] at hc
  rw [hr, ← List.append_assoc, ← List.append_assoc] at hc
  have hc := List.append_cancel_right hc
  obtain ⟨e1, e2⟩ := List.append_inj hc hl
  exact ⟨e1, e2, hr⟩

theorem mibChunks_last {head cd rec : Bytes} (h : 22 ≤ rec.length) (h2 : rec.length ≤ 65557) :
    (mibChunks (signedSections head cd rec)).getLast? = some (redirected rec head.length) := by
  have hlen := redirected_length h head.length
  have hne : redirected rec head.length ≠ [] := List.length_pos_iff.1 (by omega)
  have hcut : cut 1048576 (redirected rec head.length) = [redirected rec head.length] := by
    rw [cut_cons (by decide) hne, List.take_of_length_le (by omega), List.drop_of_length_le (by omega), cut_nil]
  simp only [mibChunks, signedSections, List.map_cons, List.map_nil, List.flatten_cons, List.flatten_nil, List.append_nil, hcut]
  rw [← List.append_assoc, List.getLast?_append]
  simp

/-- Chunked digests bind the three sections. -/
theorem chunked_binds {H : Bytes → Bytes} {s : Nat} (hs : 0 < s) (hH : ∀ b, (H b).length = s)
    {file head area cd rec file' head' area' cd' rec' : Bytes}
    (hl : ApkLayout file head area cd rec) (hl' : ApkLayout file' head' area' cd' rec')
    (h : chunkedDigest H (signedSections head cd rec) = chunkedDigest H (signedSections head' cd' rec')) :
    (head = head' ∧ cd = cd' ∧ redirected rec head.length = redirected rec' head'.length) ∨
      CollisionIn H (chunkedHashed H (signedSections head cd rec)) (chunkedHashed H (signedSections head' cd' rec')) := by
  obtain ⟨f1, f2, f3, f4, _⟩ := layout_facts hl
  obtain ⟨g1, g2, g3, g4, _⟩ := layout_facts hl'
  rcases chunkedDigest_binding hs hH h with he | hc
  · left
    have e1 := congrArg List.getLast? he
    rw [mibChunks_last f3 f4, mibChunks_last g3 g4] at e1
    have e2 := congrArg List.flatten he
    rw [mibChunks_flatten, mibChunks_flatten] at e2
    exact sections_eq f3 g3 f1 g1 (Option.some.inj e1) e2
  · exact .inr hc

/-! ## Verity: where the concatenation alone determines the sections -/

/-- The end of a concatenation that is a redirected record. -/
theorem suffix_of {a b r r' : Bytes} (h : a ++ r = b ++ r') (hl : r'.length ≤ r.length) : r' = r.drop (r.length - r'.length) := by
  have h1 := congrArg List.length h
  simp only [List.length_append] at h1
  have h2 := congrArg (List.drop b.length) h
  rw [List.drop_left, List.drop_append, List.drop_of_length_le (by omega), List.nil_append] at h2
  rw [show r.length - r'.length = b.length - a.length by omega]
  exact h2.symm

theorem redirected_drop {rec : Bytes} (h : 22 ≤ rec.length) (n d : Nat) (hd : 20 ≤ d) : (redirected rec n).drop d = rec.drop d := by
  unfold redirected
  have hlen : (rec.take 16 ++ leBytes 4 n).length = 20 := by simp; omega
  rw [List.drop_append, List.drop_of_length_le (by omega), List.nil_append, hlen, List.drop_drop]
  congr 1; omega

theorem redirected_take {rec : Bytes} (h : 22 ≤ rec.length) (n d : Nat) (hd : d ≤ 16) : (redirected rec n).take d = rec.take d := by
  unfold redirected
  rw [List.append_assoc, List.take_append_of_le_length (by simp; omega), List.take_take]
  congr 1; omega

theorem redirected_get {rec : Bytes} (h : 22 ≤ rec.length) (n i : Nat) (hi : i < 16 ∨ 20 ≤ i) : (redirected rec n)[i]? = rec[i]? := by
  rcases hi with hi | hi
  · have := congrArg (fun l => l[i]?) (redirected_take h n 16 (by omega))
    simp only [List.getElem?_take_of_lt hi] at this
    exact this
  · have := congrArg (fun l => l[i - 20]?) (redirected_drop h n 20 (by omega))
    simp only [List.getElem?_drop] at this
    have e : 20 + (i - 20) = i := by omega
    rw [e] at this
    exact this

theorem redirected_get_off {rec : Bytes} (h : 22 ≤ rec.length) (n i : Nat) (hi : i < 4) :
    (redirected rec n)[16 + i]? = (leBytes 4 n)[i]? := by
  have := congrArg (fun l => l[i]?) (redirected_offset h n)
  simp only [List.getElem?_take_of_lt hi, List.getElem?_drop] at this
  exact this

theorem le4_low (n : Nat) : (leBytes 4 n)[0]? = some (UInt8.ofNat (n % 256)) := rfl
theorem le4_high (n : Nat) : (leBytes 4 n)[3]? = some (UInt8.ofNat (n / 256 / 256 / 256 % 256)) := rfl

theorem magic_get {r : Bytes} (h : r.take 4 = [0x50, 0x4b, 0x05, 0x06]) :
    r[0]? = some 0x50 ∧ r[1]? = some 0x4b ∧ r[2]? = some 0x05 ∧ r[3]? = some 0x06 := by
  have k : ∀ i, i < 4 → r[i]? = ([0x50, 0x4b, 0x05, 0x06] : Bytes)[i]? := by
    intro i hi
    rw [← h, List.getElem?_take_of_lt hi]
  exact ⟨k 0 (by decide), k 1 (by decide), k 2 (by decide), k 3 (by decide)⟩

/-- A page-aligned length whose most significant byte is none of 0x05, 0x4b, 0x50 (those allow the length field to run into an
    EOCD magic). True of every length below 80 MiB. -/
def Unambiguous (n : Nat) : Prop := n / 16777216 ≠ 0x05 ∧ n / 16777216 ≠ 0x4b ∧ n / 16777216 ≠ 0x50

/-- If the redirected record of `file'` is a proper end of the redirected record of `file`, the first record would not have the
    shortest comment. -/
theorem no_longer_record {file head area cd rec : Bytes} {rec' : Bytes} {n' c' : Nat} (hl : ApkLayout file head area cd rec)
    (hal : head.length % 4096 = 0) (hu : Unambiguous head.length) (hr' : 22 ≤ rec'.length) (hc' : rec'.length = 22 + c')
    (hm' : rec'.take 4 = [0x50, 0x4b, 0x05, 0x06]) (hcm' : (rec'.drop 20).take 2 = leBytes 2 c') (hsm : c' ≤ 65535)
    (hlt : rec'.length < rec.length)
    (hs : redirected rec' n' = (redirected rec head.length).drop (rec.length - rec'.length)) : False := by
  obtain ⟨f1, f2, f3, f4, _⟩ := layout_facts hl
  obtain ⟨c, hc, hmin⟩ := hl.eocd
  generalize hd : rec.length - rec'.length = d at hs
  -- the bytes of the shorter record
  have hget : ∀ i, (redirected rec head.length)[d + i]? = (redirected rec' n')[i]? := by
    intro i; rw [hs, List.getElem?_drop]
  obtain ⟨m0, m1, m2, m3⟩ := magic_get hm'
  have b0 : (redirected rec head.length)[d]? = some 0x50 := by
    have := hget 0; rw [redirected_get hr' _ 0 (by omega), m0] at this; exact this
  have b1 : (redirected rec head.length)[d + 1]? = some 0x4b := by
    have := hget 1; rw [redirected_get hr' _ 1 (by omega), m1] at this; exact this
  have b2 : (redirected rec head.length)[d + 2]? = some 0x05 := by
    have := hget 2; rw [redirected_get hr' _ 2 (by omega), m2] at this; exact this
  have b3 : (redirected rec head.length)[d + 3]? = some 0x06 := by
    have := hget 3; rw [redirected_get hr' _ 3 (by omega), m3] at this; exact this
  -- byte 16 is zero
  have z16 : (redirected rec head.length)[16]? = some 0 := by
    have := redirected_get_off f3 head.length 0 (by omega)
    rw [le4_low] at this
    have h0 : head.length % 256 = 0 := by omega
    rw [h0] at this; exact this
  have t19 : (redirected rec head.length)[19]? = some (UInt8.ofNat (head.length / 16777216)) := by
    have := redirected_get_off f3 head.length 3 (by omega)
    rw [le4_high] at this
    have h0 : head.length / 256 / 256 / 256 % 256 = head.length / 16777216 := by omega
    rw [h0] at this; exact this
  have hb : head.length / 16777216 < 256 := by omega
  have hne : ∀ k : Nat, k < 256 → head.length / 16777216 ≠ k → UInt8.ofNat (head.length / 16777216) ≠ UInt8.ofNat k := by
    intro k hk hn he
    have := congrArg UInt8.toNat he
    rw [UInt8.toNat_ofNat_of_lt' (by simpa using hb), UInt8.toNat_ofNat_of_lt' (by simpa using hk)] at this
    exact hn this
  obtain ⟨u1, u2, u3⟩ := hu
  by_cases hov : d ≤ 12 ∨ 20 ≤ d
  · -- no overlap of the magic with the offset field: the original record contains the shorter one
    have orig : ∀ i, i < 4 ∨ 20 ≤ i → rec[d + i]? = rec'[i]? := by
      intro i hi
      have hi2 : d + i < 16 ∨ 20 ≤ d + i := by omega
      have hi3 : i < 16 ∨ 20 ≤ i := by omega
      rw [← redirected_get f3 head.length (d + i) hi2, hget, redirected_get hr' _ _ hi3]
    have hlen : (rec.drop d).length = 22 + c' := by rw [List.length_drop]; omega
    refine hmin c' ?_ (head ++ sigBlock area ++ cd ++ rec.take d) (rec.drop d) ⟨?_, hlen, hsm, ?_, ?_⟩
    · have := hc.len; omega
    · rw [hc.split, List.append_assoc _ (rec.take d), List.take_append_drop]
    · apply List.ext_getElem?
      intro i
      by_cases hi : i < 4
      · rw [List.getElem?_take_of_lt hi, List.getElem?_drop, orig i (.inl hi), ← hm', List.getElem?_take_of_lt hi]
      · rw [List.getElem?_eq_none (by simp; omega), List.getElem?_eq_none (by simp; omega)]
    · rw [← hcm']
      apply List.ext_getElem?
      intro i
      by_cases hi : i < 2
      · rw [List.getElem?_take_of_lt hi, List.getElem?_take_of_lt hi, List.drop_drop, List.getElem?_drop, List.getElem?_drop, Nat.add_assoc,
          orig (20 + i) (by omega)]
      · rw [List.getElem?_eq_none (by rw [List.length_take]; omega), List.getElem?_eq_none (by rw [List.length_take]; omega)]
  · have h1 : d = 13 ∨ d = 14 ∨ d = 15 ∨ d = 16 ∨ d = 17 ∨ d = 18 ∨ d = 19 := by omega
    rcases h1 with rfl | rfl | rfl | rfl | rfl | rfl | rfl
    · rw [z16] at b3; revert b3; decide
    · rw [z16] at b2; revert b2; decide
    · rw [z16] at b1; revert b1; decide
    · rw [z16] at b0; revert b0; decide
    · rw [t19] at b2; exact hne 5 (by decide) u1 (Option.some.inj b2)
    · rw [t19] at b1; exact hne 0x4b (by decide) u2 (Option.some.inj b1)
    · rw [t19] at b0; exact hne 0x50 (by decide) u3 (Option.some.inj b0)

/-- Verity digests bind the three sections of files whose first section has an unambiguous length. -/
theorem verity_binds {H : Bytes → Bytes} (hH : ∀ b, (H b).length = 32)
    {file head area cd rec file' head' area' cd' rec' : Bytes}
    (hl : ApkLayout file head area cd rec) (hl' : ApkLayout file' head' area' cd' rec')
    (ha : head.length % 4096 = 0) (ha' : head'.length % 4096 = 0) (hu : Unambiguous head.length) (hu' : Unambiguous head'.length)
    (h : veritySpec H (signedSections head cd rec).flatten = veritySpec H (signedSections head' cd' rec').flatten) :
    (head = head' ∧ cd = cd' ∧ redirected rec head.length = redirected rec' head'.length) ∨
      CollisionIn H (merkleHashed H (signedSections head cd rec).flatten) (merkleHashed H (signedSections head' cd' rec').flatten) := by
  obtain ⟨f1, f2, f3, f4, f5⟩ := layout_facts hl
  obtain ⟨g1, g2, g3, g4, g5⟩ := layout_facts hl'
  have r1 := redirected_length f3 head.length
  have r2 := redirected_length g3 head'.length
  have sz : (signedSections head cd rec).flatten.length < 2 ^ 64 := by
    simp only [signedSections, List.flatten_cons, List.flatten_nil, List.append_nil, List.length_append]; omega
  have sz' : (signedSections head' cd' rec').flatten.length < 2 ^ 64 := by
    simp only [signedSections, List.flatten_cons, List.flatten_nil, List.append_nil, List.length_append]; omega
  rcases veritySpec_binding hH sz sz' h with he | hc
  · left
    have he0 := he
    simp only [signedSections, List.flatten_cons, List.flatten_nil, List.append_nil] at he
    rw [← List.append_assoc, ← List.append_assoc] at he
    obtain ⟨c, hc, _⟩ := hl.eocd
    obtain ⟨c', hc', _⟩ := hl'.eocd
    rcases Nat.lt_trichotomy rec'.length rec.length with hlt | heq | hlt
    · exfalso
      have := suffix_of he (by omega)
      rw [r1, r2] at this
      exact no_longer_record hl ha hu g3 hc'.len hc'.magic hc'.comment hc'.small hlt this
    · have := suffix_of he (by omega)
      rw [r1, r2, heq, Nat.sub_self, List.drop_zero] at this
      exact sections_eq f3 g3 f1 g1 this.symm he0
    · exfalso
      have := suffix_of he.symm (by omega)
      rw [r1, r2] at this
      exact no_longer_record hl' ha' hu' f3 hc.len hc.magic hc.comment hc.small hlt this
  · exact .inr hc

end Apk
