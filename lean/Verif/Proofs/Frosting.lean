import Verif.Spec.Frosting
import Verif.Proofs.Base
/-! # Frosting -/
namespace Apk

theorem toI32_lt {n : Nat} : -2147483648 ≤ toI32 n ∧ toI32 n < 2147483648 := by
  unfold toI32; simp only; split <;> omega

theorem toI32_small {n : Nat} (h : n < 2 ^ 31) : toI32 n = n := by
  unfold toI32; simp only; rw [Nat.mod_eq_of_lt (by omega), if_pos (by omega)]

theorem toI32_congr {a b : Nat} (h : a % 4294967296 = b % 4294967296) : toI32 a = toI32 b := by
  unfold toI32; rw [h]

theorem IsVarint.len {v : Bytes} {n : Int} (h : IsVarint v n) : 1 ≤ v.length ∧ v.length ≤ 5 := by
  obtain ⟨i, l, rfl, _, _, h4, _⟩ := h
  simp; omega

theorem IsVarint.range {v : Bytes} {n : Int} (h : IsVarint v n) : -2147483648 ≤ n ∧ n < 2147483648 := by
  obtain ⟨i, l, rfl, _, _, h4, rfl⟩ := h
  exact toI32_lt

theorem frVarint_iff (b : Bytes) (n : Int) (rest : Bytes) :
    frVarint b = .ok (n, rest) ↔ ∃ v, b = v ++ rest ∧ IsVarint v n := by
  constructor
  · intro h
    unfold frVarint at h
    split at h
    · cases h
    · rename_i x0 r0
      split at h
      · rename_i h0
        simp only [Except.ok.injEq, Prod.mk.injEq] at h
        obtain ⟨rfl, rfl⟩ := h
        refine ⟨[x0], rfl, [], x0, rfl, by simp, h0, by simp, ?_⟩
        rw [toI32_small] <;> simp [lebVal] <;> omega
      · rename_i h0
        split at h
        · cases h
        · rename_i x1 r1
          split at h
          · rename_i h1
            simp only [Except.ok.injEq, Prod.mk.injEq] at h
            obtain ⟨rfl, rfl⟩ := h
            refine ⟨[x0, x1], rfl, [x0], x1, rfl, by simp; omega, h1, by simp, ?_⟩
            apply toI32_congr; simp [lebVal]; omega
          · rename_i h1
            split at h
            · cases h
            · rename_i x2 r2
              split at h
              · rename_i h2
                simp only [Except.ok.injEq, Prod.mk.injEq] at h
                obtain ⟨rfl, rfl⟩ := h
                refine ⟨[x0, x1, x2], rfl, [x0, x1], x2, rfl, by simp; omega, h2, by simp, ?_⟩
                apply toI32_congr; simp [lebVal]; omega
              · rename_i h2
                split at h
                · cases h
                · rename_i x3 r3
                  split at h
                  · rename_i h3
                    simp only [Except.ok.injEq, Prod.mk.injEq] at h
                    obtain ⟨rfl, rfl⟩ := h
                    refine ⟨[x0, x1, x2, x3], rfl, [x0, x1, x2], x3, rfl, by simp; omega, h3, by simp, ?_⟩
                    apply toI32_congr; simp [lebVal]; omega
                  · rename_i h3
                    split at h
                    · cases h
                    · rename_i x4 r4
                      split at h
                      · cases h
                      · rename_i h4
                        simp only [Except.ok.injEq, Prod.mk.injEq] at h
                        obtain ⟨rfl, rfl⟩ := h
                        refine ⟨[x0, x1, x2, x3, x4], rfl, [x0, x1, x2, x3], x4, rfl, by simp; omega, by omega, by simp, ?_⟩
                        apply toI32_congr; simp [lebVal]; omega
  · rintro ⟨v, rfl, init, last, rfl, hi, hl, h4, rfl⟩
    match init, hi, h4 with
    | [], _, _ =>
      simp only [List.nil_append, List.singleton_append]
      unfold frVarint
      simp only
      rw [if_pos hl, toI32_small] <;> simp [lebVal] <;> omega
    | [x0], hi, _ =>
      have h0 := hi x0 (by simp)
      simp only [List.cons_append, List.nil_append]
      unfold frVarint
      simp only
      rw [if_neg (by omega), if_pos hl]
      simp only [Except.ok.injEq, Prod.mk.injEq, and_true]
      apply toI32_congr; simp [lebVal]; omega
    | [x0, x1], hi, _ =>
      have h0 := hi x0 (by simp)
      have h1 := hi x1 (by simp)
      simp only [List.cons_append, List.nil_append]
      unfold frVarint
      simp only
      rw [if_neg (by omega), if_neg (by omega), if_pos hl]
      simp only [Except.ok.injEq, Prod.mk.injEq, and_true]
      apply toI32_congr; simp [lebVal]; omega
    | [x0, x1, x2], hi, _ =>
      have h0 := hi x0 (by simp)
      have h1 := hi x1 (by simp)
      have h2 := hi x2 (by simp)
      simp only [List.cons_append, List.nil_append]
      unfold frVarint
      simp only
      rw [if_neg (by omega), if_neg (by omega), if_neg (by omega), if_pos hl]
      simp only [Except.ok.injEq, Prod.mk.injEq, and_true]
      apply toI32_congr; simp [lebVal]; omega
    | [x0, x1, x2, x3], hi, _ =>
      have h0 := hi x0 (by simp)
      have h1 := hi x1 (by simp)
      have h2 := hi x2 (by simp)
      have h3 := hi x3 (by simp)
      simp only [List.cons_append, List.nil_append]
      unfold frVarint
      simp only
      rw [if_neg (by omega), if_neg (by omega), if_neg (by omega), if_neg (by omega), if_neg (by omega)]
      simp only [Except.ok.injEq, Prod.mk.injEq, and_true]
      apply toI32_congr; simp [lebVal]; omega
    | _ :: _ :: _ :: _ :: _ :: _, _, h => simp at h

/-- The canonical encoding is a varint. -/
theorem lebVal_varint (n : Nat) : lebVal (varint n) = n := by
  induction n using Nat.strongRecOn with
  | ind n ih =>
    rw [varint]
    split
    · simp [lebVal]; omega
    · rw [lebVal, ih (n / 128) (by omega)]
      simp; omega

theorem varint_shape (n : Nat) : ∃ init last, varint n = init ++ [last] ∧ (∀ x ∈ init, 128 ≤ x.toNat) ∧ last.toNat < 128 ∧
    ∀ k, n < 128 ^ (k + 1) → init.length ≤ k := by
  induction n using Nat.strongRecOn with
  | ind n ih =>
    rw [varint]
    split
    · refine ⟨[], UInt8.ofNat n, rfl, by simp, ?_, by simp⟩
      simp; omega
    · obtain ⟨i, l, h1, h2, h3, h4⟩ := ih (n / 128) (by omega)
      refine ⟨UInt8.ofNat (n % 128 + 128) :: i, l, by rw [h1]; rfl, ?_, h3, ?_⟩
      · intro x hx
        rcases List.mem_cons.1 hx with rfl | hx
        · simp; omega
        · exact h2 x hx
      · intro k hk
        cases k with
        | zero => simp at hk; omega
        | succ k =>
          have := h4 k (by rw [Nat.div_lt_iff_lt_mul (by decide)]; rw [Nat.pow_succ] at hk; exact hk)
          simp; omega

theorem isVarint_varint {n : Nat} (h : n < 2 ^ 31) : IsVarint (varint n) n := by
  obtain ⟨i, l, h1, h2, h3, h4⟩ := varint_shape n
  refine ⟨i, l, h1, h2, h3, h4 4 ?_, ?_⟩
  · exact Nat.lt_of_lt_of_le h (by decide)
  · rw [lebVal_varint, toI32_small h]

/-! ## Reading at a position -/

theorem frRead_at {pre v rest : Bytes} {n : Int} (h : IsVarint v n) {pos : Nat} (hp : pre.length = pos) :
    frRead (pre ++ (v ++ rest)) pos = .ok (n, pos + v.length) := by
  subst hp
  unfold frRead
  rw [List.drop_left, (frVarint_iff _ n rest).2 ⟨v, rfl, h⟩]
  simp

theorem frRead_inv {block pre rest : Bytes} {pos : Nat} {n : Int} {p' : Nat} (hb : block = pre ++ rest) (hp : pre.length = pos)
    (h : frRead block pos = .ok (n, p')) :
    ∃ v rest', rest = v ++ rest' ∧ IsVarint v n ∧ p' = pos + v.length := by
  subst hp hb
  unfold frRead at h
  rw [List.drop_left] at h
  cases hv : frVarint rest with
  | error e => rw [hv] at h; cases h
  | ok x =>
    obtain ⟨m, r⟩ := x
    rw [hv] at h
    simp only [Except.ok.injEq, Prod.mk.injEq] at h
    obtain ⟨rfl, rfl⟩ := h
    obtain ⟨v, rfl, h2⟩ := (frVarint_iff _ _ _).1 hv
    exact ⟨v, r, rfl, h2, by simp⟩

theorem frReadBytes_some {pre x rest : Bytes} {pos : Nat} (hp : pre.length = pos) (hne : x ++ rest ≠ []) :
    frReadBytes (pre ++ (x ++ rest)) pos x.length = some x := by
  subst hp
  unfold frReadBytes
  rw [if_neg]
  · simp [slice]
  · have : 0 < (x ++ rest).length := List.length_pos_iff.2 hne
    simp only [List.length_append] at *; omega

/-- Reads that may run over the end by `k` bytes. -/
theorem frReadBytes_ext {pre rest x y : Bytes} {pos k : Nat} (hp : pre.length = pos) (hr : rest ≠ [])
    (he : rest ++ List.replicate k 0 = x ++ y) : frReadBytes (pre ++ rest) pos x.length = some x := by
  subst hp
  unfold frReadBytes
  have : 0 < rest.length := List.length_pos_iff.2 hr
  rw [if_neg (by simp only [List.length_append]; omega)]
  simp only [slice, List.drop_left]
  have h1 : x = (rest ++ List.replicate k 0).take x.length := by rw [he]; simp
  have h2 : x.length ≤ rest.length + k := by have := congrArg List.length he; simp at this; omega
  congr 1
  conv => rhs; rw [h1]
  rw [List.take_append, List.take_replicate, List.length_take]
  congr 2
  omega

/-! ## Arrays -/

theorem framed_len {e : Bytes} (h : FramedItem e) : 1 ≤ e.length := by
  obtain ⟨s, b, rfl, h⟩ := h
  have := h.len
  simp; omega

theorem frSkip_sound (block : Bytes) (limit : Nat) (hlim : limit ≤ block.length) : ∀ (i pos : Nat) (pre rest : Bytes) (p : Nat),
    block = pre ++ rest → pre.length = pos → frSkip block limit i pos = .ok p →
    ∃ es rest', rest = List.flatten es ++ rest' ∧ es.length = i ∧ (∀ e ∈ es, FramedItem e) ∧ p = pos + es.flatten.length ∧ (0 < i → p < limit) := by
  intro i
  induction i with
  | zero =>
    intro pos pre rest p hb hp h
    simp only [frSkip, Except.ok.injEq] at h
    exact ⟨[], rest, rfl, rfl, by simp, by simp [h], by simp⟩
  | succ i ih =>
    intro pos pre rest p hb hp h
    rw [frSkip] at h
    cases hr : frRead block pos with
    | error e => rw [hr] at h; cases h
    | ok x =>
      obtain ⟨n, p1⟩ := x
      rw [hr] at h
      simp only at h
      split at h
      · cases h
      · rename_i hc
        obtain ⟨v, r1, rfl, hv, rfl⟩ := frRead_inv hb hp hr
        have hl : n.toNat ≤ r1.length := by
          have := congrArg List.length hb
          simp only [List.length_append] at this
          omega
        obtain ⟨es, r2, h1, h2, h3, h4, h5⟩ := ih (pos + v.length + n.toNat) (pre ++ v ++ r1.take n.toNat) (r1.drop n.toNat) p
          (by rw [hb]; simp) (by simp; omega) h
        refine ⟨(v ++ r1.take n.toNat) :: es, r2, ?_, by simp [h2], ?_, ?_, ?_⟩
        · rw [List.flatten_cons]
          rw [List.append_assoc, List.append_assoc, ← h1, List.take_append_drop]
        · intro e he
          rcases List.mem_cons.1 he with rfl | he
          · refine ⟨v, r1.take n.toNat, rfl, ?_⟩
            have : ((r1.take n.toNat).length : Int) = n := by
              rw [List.length_take, Nat.min_eq_left hl]; omega
            rw [this]; exact hv
          · exact h3 e he
        · rw [h4]; simp; omega
        · intro _
          cases i with
          | zero =>
            simp only [frSkip, Except.ok.injEq] at h
            omega
          | succ i => exact h5 (by omega)

theorem frSkip_complete (limit : Nat) : ∀ (es : List Bytes) (pre rest : Bytes), (∀ e ∈ es, FramedItem e) →
    pre.length + es.flatten.length < limit →
    frSkip (pre ++ (es.flatten ++ rest)) limit es.length pre.length = .ok (pre.length + es.flatten.length) := by
  intro es
  induction es with
  | nil => intro pre rest _ _; simp [frSkip]
  | cons e es ih =>
    intro pre rest hf hl
    obtain ⟨s, b, rfl, hs⟩ := hf e (by simp)
    rw [List.length_cons, frSkip, List.flatten_cons, List.append_assoc, List.append_assoc, frRead_at hs rfl]
    simp only
    simp only [List.flatten_cons, List.length_append] at hl
    rw [if_neg (by omega)]
    have := ih (pre ++ s ++ b) rest (fun e he => hf e (List.mem_cons_of_mem _ he)) (by simp only [List.length_append]; omega)
    have e1 : pre ++ (s ++ (b ++ (es.flatten ++ rest))) = pre ++ s ++ b ++ (es.flatten ++ rest) := by simp
    rw [e1, show pre.length + s.length + ((b.length : Int)).toNat = (pre ++ s ++ b).length by simp only [List.length_append]; omega, this]
    simp only [List.length_append, Except.ok.injEq]; omega

theorem frArrayItem_iff (pre a : Bytes) (i : Nat) (item : Bytes) :
    frArrayItem (pre ++ a) pre.length i = .ok item ↔ ArrayItem a i item := by
  constructor
  · intro h
    unfold frArrayItem at h
    cases hr : frRead (pre ++ a) pre.length with
    | error e => rw [hr] at h; cases h
    | ok x =>
      obtain ⟨n, p1⟩ := x
      rw [hr] at h
      simp only at h
      split at h
      · cases h
      · rename_i hc
        obtain ⟨v, r1, rfl, hv, rfl⟩ := frRead_inv rfl rfl hr
        simp only [List.length_append] at hc
        split at h
        · cases h
        · rename_i p hs
          obtain ⟨es, r2, rfl, h2, h3, rfl, h5⟩ := frSkip_sound _ _ (by simp only [List.length_append]; omega) i _ (pre ++ v) r1 p (by simp) (by simp) hs
          split at h
          · cases h
          · rename_i sz p' hr2
            obtain ⟨s, r3, rfl, hs2, rfl⟩ := frRead_inv (pre := pre ++ v ++ es.flatten) (rest := r2) (by simp) (by simp only [List.length_append]) hr2
            split at h
            · cases h
            · rename_i hc2
              split at h
              · cases h
              · rename_i b hb
                simp only [Except.ok.injEq] at h
                subst h
                unfold frReadBytes at hb
                split at hb
                · cases hb
                · rename_i hlt
                  simp only [List.length_append] at hlt hc
                  have hsl : slice (pre ++ (v ++ (es.flatten ++ (s ++ r3)))) (pre.length + v.length + es.flatten.length + s.length) sz.toNat
                      = r3.take sz.toNat := by
                    unfold slice
                    rw [show pre ++ (v ++ (es.flatten ++ (s ++ r3))) = (pre ++ v ++ es.flatten ++ s) ++ r3 by simp,
                      show pre.length + v.length + es.flatten.length + s.length = (pre ++ v ++ es.flatten ++ s).length by simp only [List.length_append],
                      List.drop_left]
                  rw [hsl] at hb
                  have hlen : sz.toNat ≤ r3.length := by omega
                  have hb' : r3.take sz.toNat = b := by
                    simp only [List.length_take, Nat.min_eq_left hlen, Nat.sub_self, List.replicate_zero, List.append_nil,
                      Option.some.injEq] at hb
                    exact hb
                  have hbl : b.length = sz.toNat := by rw [← hb', List.length_take, Nat.min_eq_left hlen]
                  refine ⟨v, es, s, r3.drop sz.toNat, n.toNat, ?_, ?_, h2, h3, ?_, ?_, ?_, ?_⟩
                  · rw [← hb']; simp
                  · rw [show ((n.toNat : Nat) : Int) = n by omega]; exact hv
                  · rw [show ((b.length : Nat) : Int) = sz by omega]; exact hs2
                  · simp only [List.length_append]; omega
                  · simp only [List.length_append]; omega
                  · rw [← hb', List.take_append_drop]
                    intro hh; subst hh; simp only [List.length_nil] at hlt; omega
  · rintro ⟨v, es, s, rest, total, rfl, hv, hes, hf, hs, h1, h2, h3⟩
    unfold frArrayItem
    have hsl := hs.len
    have e0 : pre ++ (v ++ es.flatten ++ s ++ item ++ rest) = pre ++ (v ++ (es.flatten ++ (s ++ (item ++ rest)))) := by simp
    rw [e0, frRead_at hv rfl]
    simp only [List.length_append] at h1 h2 ⊢
    rw [if_neg (by omega)]
    have e1 : pre ++ (v ++ (es.flatten ++ (s ++ (item ++ rest)))) = (pre ++ v) ++ (es.flatten ++ (s ++ (item ++ rest))) := by simp
    have hsk := frSkip_complete (pre.length + v.length + total) es (pre ++ v) (s ++ (item ++ rest)) hf (by simp only [List.length_append]; omega)
    rw [← e1, hes] at hsk
    simp only [List.length_append] at hsk
    rw [show ((total : Nat) : Int).toNat = total by omega, hsk]
    have e2 : pre ++ (v ++ (es.flatten ++ (s ++ (item ++ rest)))) = (pre ++ v ++ es.flatten) ++ (s ++ (item ++ rest)) := by simp
    have hr2 := frRead_at (pre := pre ++ v ++ es.flatten) (rest := item ++ rest) hs (pos := pre.length + v.length + es.flatten.length) (by simp only [List.length_append])
    rw [← e2] at hr2
    simp only
    rw [hr2]
    simp only
    rw [if_neg (by omega)]
    have e3 : pre ++ (v ++ (es.flatten ++ (s ++ (item ++ rest)))) = (pre ++ v ++ es.flatten ++ s) ++ (item ++ rest) := by simp
    have hrb := frReadBytes_some (pre := pre ++ v ++ es.flatten ++ s) (x := item) (rest := rest) (pos := pre.length + v.length + es.flatten.length + s.length) (by simp only [List.length_append]) h3
    rw [← e3] at hrb
    rw [show ((item.length : Nat) : Int).toNat = item.length by omega, hrb]

/-! ## Signature by the pinned key -/

theorem frVerifySignature_iff (env : Env) (signed signature : Bytes) :
    frVerifySignature env signed signature = none ↔ PinnedSigned env signed signature := by
  unfold frVerifySignature PinnedSigned
  constructor
  · intro h
    split at h
    · cases h
    · rename_i pk hpk
      split at h
      · cases h
      · rename_i hk
        split at h
        · cases h
        · rename_i r s rest hr
          split at h
          · cases h
          · rename_i hrest
            split at h
            · cases h
            · rename_i hrs
              split at h
              · rename_i hv
                have : rest = [] := Classical.byContradiction hrest
                subst this
                exact ⟨pk, r, s, hpk, Classical.byContradiction hk, hr, by omega, by omega, hv⟩
              · cases h
  · rintro ⟨pk, r, s, h1, h2, h3, h4, h5, h6⟩
    rw [h1]
    simp only
    rw [if_neg (by simp [h2]), h3]
    simp only
    rw [if_neg (by simp), if_neg (by omega), if_pos h6]

/-! ## The metadata loop -/

theorem frRead_oob {block : Bytes} {pos : Nat} (h : block.length ≤ pos) : frRead block pos = .error .eof := by
  unfold frRead
  rw [List.drop_eq_nil_of_le h]
  rfl

theorem wrap_next {nk : Int} {pos1 pos2 : Nat} (hr : -2147483648 ≤ nk ∧ nk < 2147483648) (h1 : pos1 < pos2)
    (h : (pos2 : Int) ≤ wrap32 (nk + toI32 pos1)) :
    wrap32 (nk + toI32 pos1) = nk + pos1 ∧ nk + pos1 < 2147483648 := by
  have hlt := (toI32_lt (n := ((nk + toI32 pos1) % 4294967296).toNat)).2
  have hp : pos1 < 2 ^ 31 := by
    unfold wrap32 at h; omega
  rw [toI32_small hp] at h hlt ⊢
  unfold wrap32 toI32 at *
  simp only at *
  split at h
  · rename_i hc; rw [if_pos hc]; omega
  · omega

theorem wrap_small {nk pos1 : Nat} (h : nk + pos1 < 2147483648) : wrap32 ((nk : Int) + toI32 pos1) = nk + pos1 := by
  rw [toI32_small (by omega)]
  unfold wrap32
  rw [show (((nk : Int) + pos1) % 4294967296).toNat = nk + pos1 by omega, toI32_small (by omega)]
  omega

/-- The metadata entries from some position on, and what follows from them. -/
structure LoopOK (env : Env) (block : Bytes) (offA : Nat) (pm : Int) (protoStart protoSize limit fuel i : Nat) (pre rest : Bytes)
    (info : FrostInfo) (dis : List Bytes) (v3 v4 v5 rest2 rest' signature signed : Bytes) : Prop where
  split : rest = dis.flatten ++ (v3 ++ (v4 ++ (v5 ++ rest2)))
  tail : rest2 ++ List.replicate 10 0 = info.fileSha256 ++ rest'
  shaLen : info.fileSha256.length = 32
  disabled : ∀ d ∈ dis, DisabledEntry d
  count : dis.length < fuel
  h3 : IsVarint v3 (v4 ++ v5 ++ info.fileSha256).length
  h4 : IsVarint v4 0
  h5 : IsVarint v5 0
  lim : (pre ++ dis.flatten ++ v3 ++ v4 ++ v5 ++ info.fileSha256).length ≤ limit
  small : (pre ++ dis.flatten ++ v3 ++ v4 ++ v5 ++ info.fileSha256).length < 2147483648
  item : frArrayItem block (offA + pm.toNat) (i + dis.length) = .ok signature
  hsigned : frReadBytes block offA ((pre ++ dis.flatten ++ v3 ++ v4 ++ v5 ++ info.fileSha256).length - offA) = some signed
  valid : frVerifySignature env signed signature = none
  proto : frReadBytes block protoStart protoSize = some info.protobufInfo

theorem frLoop_sound (env : Env) (block : Bytes) (offA : Nat) (pm : Int) (protoStart protoSize limit : Nat)
    (hlim : limit ≤ block.length + 10) (info : FrostInfo) : ∀ (fuel i pos : Nat) (pre rest : Bytes) (fr : FrostParse), block = pre ++ rest →
    pre.length = pos → frLoop env block offA pm protoStart protoSize limit fuel i pos = .ok fr → fr.info = .ok info →
    ∃ dis v3 v4 v5 rest2 rest' signature signed,
      LoopOK env block offA pm protoStart protoSize limit fuel i pre rest info dis v3 v4 v5 rest2 rest' signature signed := by
  intro fuel
  induction fuel with
  | zero =>
    intro i pos pre rest fr hb hp h hi
    simp only [frLoop, Except.ok.injEq] at h
    subst h; cases hi
  | succ fuel ih =>
    intro i pos pre rest fr hb hp h hi
    rw [frLoop] at h
    split at h
    · simp only [Except.ok.injEq] at h
      subst h; cases hi
    · rename_i hpos
      split at h
      · simp only [Except.ok.injEq] at h
        subst h; cases hi
      · rename_i nk pos1 hr1
        obtain ⟨v3, r1, rfl, hv3, rfl⟩ := frRead_inv hb hp hr1
        simp only at h
        split at h
        · simp only [Except.ok.injEq] at h
          subst h; cases hi
        · rename_i hnk
          split at h
          · simp only [Except.ok.injEq] at h
            subst h; cases hi
          · rename_i disabled pos2 hr2
            obtain ⟨v4, r2, rfl, hv4, rfl⟩ := frRead_inv (pre := pre ++ v3) (rest := r1) (by rw [hb]; simp) (by simp [hp]) hr2
            split at h
            · simp only [Except.ok.injEq] at h
              subst h; cases hi
            · rename_i hle
              have hl4 := hv4.len
              obtain ⟨hw, hw2⟩ := wrap_next hv3.range (show pos + v3.length < pos + v3.length + v4.length by omega) (by omega)
              rw [hw] at h hnk hle
              split at h
              · -- disabled entry
                rename_i hd
                by_cases hlen : (nk + (pos + v3.length : Nat)).toNat ≤ block.length
                · have hrl : nk.toNat - v4.length ≤ r2.length := by
                    have := congrArg List.length hb
                    simp only [List.length_append] at this
                    omega
                  obtain ⟨dis, w3, w4, w5, rest2, rest', signature, signed, hk⟩ := ih (i + 1) _
                    (pre ++ (v3 ++ v4 ++ r2.take (nk.toNat - v4.length))) (r2.drop (nk.toNat - v4.length)) fr
                    (by rw [hb]; simp) (by simp only [List.length_append, List.length_take, Nat.min_eq_left hrl]; omega) h hi
                  have hent : DisabledEntry (v3 ++ v4 ++ r2.take (nk.toNat - v4.length)) := by
                    refine ⟨v3, v4, r2.take (nk.toNat - v4.length), disabled, rfl, ?_, hv4, hd⟩
                    have : (((v4 ++ r2.take (nk.toNat - v4.length)).length : Nat) : Int) = nk := by
                      simp only [List.length_append, List.length_take, Nat.min_eq_left hrl]; omega
                    rw [this]; exact hv3
                  have e1 : pre ++ ((v3 ++ v4 ++ r2.take (nk.toNat - v4.length)) :: dis).flatten =
                      pre ++ (v3 ++ v4 ++ r2.take (nk.toNat - v4.length)) ++ dis.flatten := by
                    rw [List.flatten_cons]; simp
                  refine ⟨(v3 ++ v4 ++ r2.take (nk.toNat - v4.length)) :: dis, w3, w4, w5, rest2, rest', signature, signed, ?_⟩
                  constructor
                  · rw [List.flatten_cons]
                    have := hk.split
                    rw [List.append_assoc, ← this]; simp
                  · exact hk.tail
                  · exact hk.shaLen
                  · intro d hdm
                    rcases List.mem_cons.1 hdm with rfl | hdm
                    · exact hent
                    · exact hk.disabled d hdm
                  · simp only [List.length_cons]; have := hk.count; omega
                  · exact hk.h3
                  · exact hk.h4
                  · exact hk.h5
                  · rw [e1]; exact hk.lim
                  · rw [e1]; exact hk.small
                  · rw [List.length_cons, show i + (dis.length + 1) = i + 1 + dis.length by omega]; exact hk.item
                  · rw [e1]; exact hk.hsigned
                  · exact hk.valid
                  · exact hk.proto
                · exfalso
                  cases fuel with
                  | zero =>
                    simp only [frLoop, Except.ok.injEq] at h
                    subst h; cases hi
                  | succ fuel =>
                    rw [frLoop] at h
                    split at h
                    · simp only [Except.ok.injEq] at h
                      subst h; cases hi
                    · rw [frRead_oob (by omega)] at h
                      simp only [Except.ok.injEq] at h
                      subst h; cases hi
              · -- enabled entry
                rename_i hd
                have hd0 : disabled = 0 := Classical.byContradiction hd
                subst hd0
                split at h
                · simp only [Except.ok.injEq] at h
                  subst h; cases hi
                · rename_i ki pos3 hr3
                  obtain ⟨v5, r3, rfl, hv5, rfl⟩ := frRead_inv (pre := pre ++ v3 ++ v4) (rest := r2) (by rw [hb]; simp)
                    (by simp only [List.length_append]; omega) hr3
                  split at h
                  · simp only [Except.ok.injEq] at h
                    subst h; cases hi
                  · rename_i hki
                    split at h
                    · simp only [Except.ok.injEq] at h
                      subst h; cases hi
                    · rename_i h32
                      split at h
                      · simp only [Except.ok.injEq] at h
                        subst h; cases hi
                      · rename_i sha hsha
                        split at h
                        · simp only [Except.ok.injEq] at h
                          subst h; cases hi
                        · rename_i signature hsig
                          split at h
                          · simp only [Except.ok.injEq] at h
                            subst h; cases hi
                          · rename_i signed hsigned
                            split at h
                            · cases h
                            · rename_i hki0
                              have hk0 : ki = 0 := by omega
                              subst hk0
                              split at h
                              · simp only [Except.ok.injEq] at h
                                subst h; cases hi
                              · simp only [Except.ok.injEq] at h
                                subst h; cases hi
                              · rename_i hver
                                split at h
                                · simp only [Except.ok.injEq] at h
                                  subst h; cases hi
                                · rename_i proto hproto
                                  simp only [Except.ok.injEq] at h
                                  subst h
                                  simp only [Except.ok.injEq] at hi
                                  subst hi
                                  have hbl := congrArg List.length hb
                                  simp only [List.length_append] at hbl
                                  unfold frReadBytes at hsha
                                  split at hsha
                                  · cases hsha
                                  · rename_i hin
                                    have hsl : slice block (pos + v3.length + v4.length + v5.length) 32 = r3.take 32 := by
                                      unfold slice
                                      rw [hb, show pre ++ (v3 ++ (v4 ++ (v5 ++ r3))) = (pre ++ v3 ++ v4 ++ v5) ++ r3 by simp,
                                        show pos + v3.length + v4.length + v5.length = (pre ++ v3 ++ v4 ++ v5).length by
                                          simp only [List.length_append]; omega, List.drop_left]
                                    rw [hsl, Option.some.injEq] at hsha
                                    have hslen : sha.length = 32 := by
                                      rw [← hsha]; simp; omega
                                    have htail : ∃ rest', r3 ++ List.replicate 10 0 = sha ++ rest' := by
                                      by_cases hc : 32 ≤ r3.length
                                      · refine ⟨r3.drop 32 ++ List.replicate 10 0, ?_⟩
                                        rw [← hsha, List.length_take, Nat.min_eq_left hc]
                                        simp only [Nat.sub_self, List.replicate_zero, List.append_nil]
                                        rw [← List.append_assoc, List.take_append_drop]
                                      · refine ⟨List.replicate (10 - (32 - r3.length)) 0, ?_⟩
                                        rw [← hsha, List.take_of_length_le (by omega), List.append_assoc, List.replicate_append_replicate]
                                        congr 2
                                        omega
                                    obtain ⟨rest', htail⟩ := htail
                                    have hend : (nk + ((pos + v3.length : Nat) : Int)).toNat = (pre ++ [].flatten ++ v3 ++ v4 ++ v5 ++ sha).length := by
                                      simp only [List.length_append, List.flatten_nil, List.length_nil]; omega
                                    refine ⟨[], v3, v4, v5, r3, rest', signature, signed, ?_⟩
                                    constructor
                                    · rfl
                                    · exact htail
                                    · exact hslen
                                    · intro d hd; cases hd
                                    · simp
                                    · have : (((v4 ++ v5 ++ sha).length : Nat) : Int) = nk := by
                                        simp only [List.length_append]; omega
                                      rw [this]; exact hv3
                                    · exact hv4
                                    · exact hv5
                                    · simp only; rw [← hend]; omega
                                    · simp only; rw [← hend]; omega
                                    · exact hsig
                                    · simp only; rw [← hend]; exact hsigned
                                    · exact hver
                                    · exact hproto

theorem frLoop_complete (env : Env) (block : Bytes) (offA : Nat) (pm : Int) (protoStart protoSize limit : Nat) (info : FrostInfo)
    (v3 v4 v5 rest2 rest' signature signed : Bytes) : ∀ (dis : List Bytes) (fuel i : Nat) (pre rest : Bytes), block = pre ++ rest →
    LoopOK env block offA pm protoStart protoSize limit fuel i pre rest info dis v3 v4 v5 rest2 rest' signature signed →
    frLoop env block offA pm protoStart protoSize limit fuel i pre.length = .ok ⟨true, .ok info⟩ := by
  intro dis
  induction dis with
  | nil =>
    intro fuel i pre rest hb h
    have hcount := h.count
    cases fuel with
    | zero => simp at hcount
    | succ fuel =>
      have hl3 := h.h3.len
      have hl4 := h.h4.len
      have hl5 := h.h5.len
      have hlim := h.lim
      have hsm := h.small
      have hsp := h.split
      have hsh := h.shaLen
      have hsd := h.hsigned
      simp only [List.length_append, List.flatten_nil, List.length_nil, List.nil_append, Nat.add_zero] at hlim hsm hsp hsd
      subst hsp
      have ht : rest2 ≠ [] := by
        intro hh
        have := congrArg List.length h.tail
        rw [hh] at this
        simp [hsh] at this
        omega
      rw [frLoop, if_neg (by omega)]
      have hr1 := frRead_at (pre := pre) (rest := v4 ++ (v5 ++ rest2)) h.h3 rfl
      rw [← hb] at hr1
      rw [hr1]
      simp only
      have hwr := wrap_small (nk := (v4 ++ v5 ++ info.fileSha256).length) (pos1 := pre.length + v3.length)
        (by simp only [List.length_append]; omega)
      rw [hwr]
      rw [if_neg (by simp only [List.length_append]; omega)]
      have hr2 := frRead_at (pre := pre ++ v3) (rest := v5 ++ rest2) h.h4 (pos := pre.length + v3.length) (by simp)
      rw [show pre ++ v3 ++ (v4 ++ (v5 ++ rest2)) = block by rw [hb]; simp] at hr2
      rw [hr2]
      simp only
      rw [if_neg (by simp only [List.length_append]; omega), if_neg (by simp)]
      have hr3 := frRead_at (pre := pre ++ v3 ++ v4) (rest := rest2) h.h5 (pos := pre.length + v3.length + v4.length)
        (by simp only [List.length_append])
      rw [show pre ++ v3 ++ v4 ++ (v5 ++ rest2) = block by rw [hb]; simp] at hr3
      rw [hr3]
      simp only
      rw [if_neg (by omega), if_neg (by simp only [List.length_append]; omega)]
      have hsha := frReadBytes_ext (pre := pre ++ v3 ++ v4 ++ v5) (pos := pre.length + v3.length + v4.length + v5.length)
        (by simp only [List.length_append]) ht h.tail
      rw [show pre ++ v3 ++ v4 ++ v5 ++ rest2 = block by rw [hb]; simp, hsh] at hsha
      rw [hsha]
      simp only
      have hit := h.item
      simp only [List.length_nil, Nat.add_zero] at hit
      rw [hit]
      simp only
      rw [show (((v4 ++ v5 ++ info.fileSha256).length : Int) + ((pre.length + v3.length : Nat) : Int)).toNat - offA =
        pre.length + v3.length + v4.length + v5.length + info.fileSha256.length - offA by simp only [List.length_append]; omega]
      rw [hsd]
      simp only
      rw [if_neg (by omega), h.valid]
      simp only
      rw [h.proto]
  | cons d dis ih =>
    intro fuel i pre rest hb h
    have hcount := h.count
    cases fuel with
    | zero => simp at hcount
    | succ fuel =>
      obtain ⟨s, f, t, x, rfl, hs, hf, hx⟩ := h.disabled d (by simp)
      have hls := hs.len
      have hlf := hf.len
      have hlim := h.lim
      have hsm := h.small
      have hsp := h.split
      rw [List.flatten_cons] at hlim hsm hsp
      simp only [List.length_append] at hlim hsm
      rw [frLoop, if_neg (by omega)]
      have hr1 := frRead_at (pre := pre) (rest := f ++ (t ++ (dis.flatten ++ (v3 ++ (v4 ++ (v5 ++ rest2)))))) hs rfl
      rw [show pre ++ (s ++ (f ++ (t ++ (dis.flatten ++ (v3 ++ (v4 ++ (v5 ++ rest2))))))) = block by rw [hb, hsp]; simp] at hr1
      rw [hr1]
      simp only
      have hwr := wrap_small (nk := (f ++ t).length) (pos1 := pre.length + s.length) (by simp only [List.length_append]; omega)
      rw [hwr]
      rw [if_neg (by simp only [List.length_append]; omega)]
      have hr2 := frRead_at (pre := pre ++ s) (rest := t ++ (dis.flatten ++ (v3 ++ (v4 ++ (v5 ++ rest2))))) hf
        (pos := pre.length + s.length) (by simp)
      rw [show pre ++ s ++ (f ++ (t ++ (dis.flatten ++ (v3 ++ (v4 ++ (v5 ++ rest2)))))) = block by rw [hb, hsp]; simp] at hr2
      rw [hr2]
      simp only
      rw [if_neg (by simp only [List.length_append]; omega), if_pos hx]
      have e1 : pre ++ ((s ++ f ++ t) :: dis).flatten = pre ++ (s ++ f ++ t) ++ dis.flatten := by
        rw [List.flatten_cons]; simp
      have := ih fuel (i + 1) (pre ++ (s ++ f ++ t)) (dis.flatten ++ (v3 ++ (v4 ++ (v5 ++ rest2)))) (by rw [hb, hsp]; simp)
        ⟨rfl, h.tail, h.shaLen, fun d hd => h.disabled d (List.mem_cons_of_mem _ hd), by simp only [List.length_cons] at hcount; omega,
          h.h3, h.h4, h.h5, by rw [← e1]; exact h.lim, by rw [← e1]; exact h.small,
          by rw [show i + 1 + dis.length = i + ((s ++ f ++ t) :: dis).length by simp only [List.length_cons]; omega]; exact h.item,
          by rw [← e1]; exact h.hsigned, h.valid, h.proto⟩
      rw [← this]
      congr 1
      simp only [List.length_append]; omega

/-! ## The whole block -/

theorem frParse_iff (env : Env) (block : Bytes) (info : FrostInfo) :
    (∃ fr, frParse env block = .ok fr ∧ fr.info = .ok info) ↔ FrostValid env block info.fileSha256 info.protobufInfo := by
  constructor
  · rintro ⟨fr, h, hi⟩
    unfold frParse at h
    split at h
    · simp only [Except.ok.injEq] at h; subst h; cases hi
    · rename_i pm offA hr0
      obtain ⟨v0, r0, hb, hv0, rfl⟩ := frRead_inv (pre := []) (rest := block) rfl rfl hr0
      simp only [List.length_nil, Nat.zero_add] at h hr0
      split at h
      · simp only [Except.ok.injEq] at h; subst h; cases hi
      · rename_i hpm
        split at h
        · simp only [Except.ok.injEq] at h; subst h; cases hi
        · rename_i psz pst hr1
          obtain ⟨v1, r1, rfl, hv1, rfl⟩ := frRead_inv (pre := v0) hb rfl hr1
          split at h
          · simp only [Except.ok.injEq] at h; subst h; cases hi
          · rename_i hps
            have hbl := congrArg List.length hb
            simp only [List.length_append] at hbl hpm hps
            have hpl : psz.toNat ≤ r1.length := by omega
            split at h
            · simp only [Except.ok.injEq] at h; subst h; cases hi
            · rename_i msz p hr2
              obtain ⟨v2, r2, hr, hv2, rfl⟩ := frRead_inv (pre := v0 ++ v1 ++ r1.take psz.toNat) (rest := r1.drop psz.toNat)
                (by rw [hb]; simp) (by simp only [List.length_append, List.length_take, Nat.min_eq_left hpl]) hr2
              split at h
              · simp only [Except.ok.injEq] at h; subst h; cases hi
              · rename_i hms
                have hl1 := hv1.len
                have hl2 := hv2.len
                have hb2 : block = (v0 ++ v1 ++ r1.take psz.toNat ++ v2) ++ r2 := by
                  rw [hb, List.append_assoc _ v2 r2, ← hr]; simp
                obtain ⟨dis, v3, v4, v5, rest2, rest', signature, signed, hk⟩ := frLoop_sound env block v0.length pm
                  (v0.length + v1.length) psz.toNat _ (by omega) info 32767 0 _ (v0 ++ v1 ++ r1.take psz.toNat ++ v2) r2 fr hb2
                  (by simp only [List.length_append, List.length_take, Nat.min_eq_left hpl]) h hi
                have hproto : info.protobufInfo = r1.take psz.toNat := by
                  have := hk.proto
                  have e : frReadBytes block (v0.length + v1.length) psz.toNat = some (r1.take psz.toNat) := by
                    have := frReadBytes_some (pre := v0 ++ v1) (x := r1.take psz.toNat) (rest := r1.drop psz.toNat)
                      (pos := v0.length + v1.length) (by simp) (by
                        rw [List.take_append_drop]
                        intro hh; rw [hh] at hpl; simp at hpl; omega)
                    rw [List.take_append_drop, List.length_take, Nat.min_eq_left hpl] at this
                    rw [← this, hb]; simp
                  rw [e] at this
                  exact (Option.some.inj this).symm
                have hplen : info.protobufInfo.length = psz.toNat := by rw [hproto, List.length_take, Nat.min_eq_left hpl]
                rw [← hproto] at hk hb2
                have hsig : signed = v1 ++ info.protobufInfo ++ v2 ++ dis.flatten ++ v3 ++ v4 ++ v5 ++ info.fileSha256 := by
                  have h1 := hk.hsigned
                  have hl1 := hv1.len
                  have h2 := frReadBytes_ext (pre := v0) (pos := v0.length) (k := 10)
                    (rest := v1 ++ (info.protobufInfo ++ (v2 ++ r2)))
                    (x := v1 ++ info.protobufInfo ++ v2 ++ dis.flatten ++ v3 ++ v4 ++ v5 ++ info.fileSha256) (y := rest') rfl
                    (by intro hh; have := congrArg List.length hh; simp only [List.length_append, List.length_nil] at this; omega)
                    (by rw [hk.split]; simp only [List.append_assoc]; rw [hk.tail])
                  rw [show v0 ++ (v1 ++ (info.protobufInfo ++ (v2 ++ r2))) = block by rw [hb2]; simp] at h2
                  rw [show (v0 ++ v1 ++ info.protobufInfo ++ v2 ++ dis.flatten ++ v3 ++ v4 ++ v5 ++ info.fileSha256).length - v0.length =
                    (v1 ++ info.protobufInfo ++ v2 ++ dis.flatten ++ v3 ++ v4 ++ v5 ++ info.fileSha256).length by
                      simp only [List.length_append]; omega] at h1
                  rw [h2] at h1
                  exact (Option.some.inj h1).symm
                have hlim := hk.lim
                have hsm := hk.small
                simp only [List.length_append] at hlim hsm
                refine ⟨signed, signature, ⟨v0, v1, v2, dis, v3, v4, v5, rest2, rest', pm.toNat, msz.toNat, ?_, hk.tail, hk.shaLen, hsig, ?_, ?_, ?_, ?_,
                  ?_, ?_, ?_, ?_, hk.disabled, hk.count, hk.h3, hk.h4, hk.h5, ?_, ?_⟩, (frVerifySignature_iff _ _ _).1 hk.valid⟩
                · rw [hb2, hk.split]; simp
                · rw [hsig]; simp only [List.length_append]; omega
                · rw [show ((pm.toNat : Nat) : Int) = pm by omega]; exact hv0
                · omega
                · rw [hplen, show ((psz.toNat : Nat) : Int) = psz by omega]; exact hv1
                · intro hh; rw [hh] at hplen; simp at hplen; omega
                · omega
                · rw [show ((msz.toNat : Nat) : Int) = msz by omega]; exact hv2
                · omega
                · simp only [List.length_append]; omega
                · have hit := hk.item
                  have hd : block = block.take (v0.length + pm.toNat) ++ block.drop (v0.length + pm.toNat) := (List.take_append_drop _ _).symm
                  have hl : (block.take (v0.length + pm.toNat)).length = v0.length + pm.toNat := by
                    rw [List.length_take, Nat.min_eq_left (by omega)]
                  rw [Nat.zero_add, ← hl] at hit
                  conv at hit => lhs; arg 1; rw [hd]
                  exact (frArrayItem_iff _ _ _ _).1 hit
  · rintro ⟨signed, signature, ⟨v0, v1, v2, dis, v3, v4, v5, rest, rest', pm, msz, hb, htail, hsha, hsig, hsm, hv0, hpm, hv1, hpne, hps, hv2, hms,
      hdis, hcnt, hv3, hv4, hv5, hlim, hit⟩, hval⟩
    have hl1 := hv1.len
    have hl2 := hv2.len
    have hl3 := hv3.len
    have hbl := congrArg List.length hb
    have hppos : 0 < info.protobufInfo.length := List.length_pos_iff.2 hpne
    have hsl := congrArg List.length hsig
    simp only [List.length_append] at hbl hlim hsm hsl
    refine ⟨⟨true, .ok info⟩, ?_, rfl⟩
    unfold frParse
    have hr0 := frRead_at (pre := []) (rest := v1 ++ info.protobufInfo ++ v2 ++ dis.flatten ++ v3 ++ v4 ++ v5 ++ rest) hv0 rfl
    rw [List.nil_append, show v0 ++ (v1 ++ info.protobufInfo ++ v2 ++ dis.flatten ++ v3 ++ v4 ++ v5 ++ rest) = block by rw [hb]; simp] at hr0
    rw [show ([] : Bytes).length = 0 from rfl, Nat.zero_add] at hr0
    rw [hr0]
    simp only
    rw [if_neg (by omega)]
    have hr1 := frRead_at (pre := v0) (rest := info.protobufInfo ++ v2 ++ dis.flatten ++ v3 ++ v4 ++ v5 ++ rest) hv1 rfl
    rw [show v0 ++ (v1 ++ (info.protobufInfo ++ v2 ++ dis.flatten ++ v3 ++ v4 ++ v5 ++ rest)) = block by rw [hb]; simp] at hr1
    rw [hr1]
    simp only
    rw [if_neg (by omega)]
    have hr2 := frRead_at (pre := v0 ++ v1 ++ info.protobufInfo) (rest := dis.flatten ++ v3 ++ v4 ++ v5 ++ rest) hv2
      (pos := v0.length + v1.length + info.protobufInfo.length) (by simp only [List.length_append])
    rw [show v0 ++ v1 ++ info.protobufInfo ++ (v2 ++ (dis.flatten ++ v3 ++ v4 ++ v5 ++ rest)) = block by rw [hb]; simp] at hr2
    rw [show ((info.protobufInfo.length : Nat) : Int).toNat = info.protobufInfo.length by omega, hr2]
    simp only
    rw [if_neg (by omega)]
    have := frLoop_complete env block v0.length pm (v0.length + v1.length) info.protobufInfo.length
      (v0.length + v1.length + info.protobufInfo.length + v2.length + msz) info v3 v4 v5 rest rest' signature signed dis 32767 0
      (v0 ++ v1 ++ info.protobufInfo ++ v2) (dis.flatten ++ (v3 ++ (v4 ++ (v5 ++ rest)))) (by rw [hb]; simp) (by
        constructor
        · rfl
        · exact htail
        · exact hsha
        · exact hdis
        · exact hcnt
        · exact hv3
        · exact hv4
        · exact hv5
        · simp only [List.length_append]; omega
        · simp only [List.length_append]; omega
        · have hd : block = block.take (v0.length + pm) ++ block.drop (v0.length + pm) := (List.take_append_drop _ _).symm
          have hl : (block.take (v0.length + pm)).length = v0.length + pm := by
            rw [List.length_take, Nat.min_eq_left (by omega)]
          have := (frArrayItem_iff (block.take (v0.length + pm)) _ _ _).2 hit
          rw [← hd, hl] at this
          rw [Nat.zero_add, show ((pm : Nat) : Int).toNat = pm by omega]
          exact this
        · have h2 := frReadBytes_ext (pre := v0) (pos := v0.length) (k := 10)
            (rest := v1 ++ (info.protobufInfo ++ (v2 ++ (dis.flatten ++ (v3 ++ (v4 ++ (v5 ++ rest)))))))
            (x := v1 ++ info.protobufInfo ++ v2 ++ dis.flatten ++ v3 ++ v4 ++ v5 ++ info.fileSha256) (y := rest') rfl
            (by intro hh; have := congrArg List.length hh; simp only [List.length_append, List.length_nil] at this; omega)
            (by simp only [List.append_assoc]; rw [htail])
          rw [show v0 ++ (v1 ++ (info.protobufInfo ++ (v2 ++ (dis.flatten ++ (v3 ++ (v4 ++ (v5 ++ rest))))))) = block by rw [hb]; simp] at h2
          rw [show (v0 ++ v1 ++ info.protobufInfo ++ v2 ++ dis.flatten ++ v3 ++ v4 ++ v5 ++ info.fileSha256).length - v0.length =
              (v1 ++ info.protobufInfo ++ v2 ++ dis.flatten ++ v3 ++ v4 ++ v5 ++ info.fileSha256).length by
                simp only [List.length_append]; omega, h2, hsig]
        · exact (frVerifySignature_iff _ _ _).2 hval
        · have := frReadBytes_some (pre := v0 ++ v1) (x := info.protobufInfo) (rest := v2 ++ (dis.flatten ++ (v3 ++ (v4 ++ (v5 ++ rest)))))
            (pos := v0.length + v1.length) (by simp) (by intro hh; exact hpne (List.append_eq_nil_iff.1 hh).1)
          rw [← this, hb]; simp)
    rw [show ((msz : Nat) : Int).toNat = msz by omega]
    simp only [List.length_append] at this
    exact this

theorem frLoop_keyUsed {env : Env} {block : Bytes} {offA : Nat} {pm : Int} {ps pz lim : Nat} {fr : FrostParse} {info : FrostInfo} (fuel : Nat) :
    ∀ i pos, frLoop env block offA pm ps pz lim fuel i pos = .ok fr → fr.info = .ok info → fr.keyUsed = true := by
  induction fuel with
  | zero =>
    intro i pos h hi
    simp only [frLoop, Except.ok.injEq] at h
    subst h; cases hi
  | succ fuel ih =>
    intro i pos h hi
    rw [frLoop] at h
    dsimp only at h
    repeat' split at h
    all_goals first
      | (simp only [Except.ok.injEq] at h; subst h; first | rfl | cases hi)
      | cases h
      | exact ih _ _ h hi

theorem frParse_keyUsed {env : Env} {block : Bytes} {fr : FrostParse} {info : FrostInfo} (h : frParse env block = .ok fr)
    (hi : fr.info = .ok info) : fr.keyUsed = true := by
  unfold frParse at h
  repeat' split at h
  all_goals first
    | (simp only [Except.ok.injEq] at h; subst h; first | rfl | cases hi)
    | exact frLoop_keyUsed _ _ _ h hi

/-! ## The file digest -/

theorem frSection_eq (file : Bytes) : ∀ (fuel off size : Nat), size < fuel → off + size ≤ file.length →
    frSection file fuel off size = some (slice file off size) := by
  intro fuel
  induction fuel with
  | zero => intro off size h; omega
  | succ fuel ih =>
    intro off size h hl
    unfold frSection
    split
    · rename_i hz; subst hz; simp [slice]
    · simp only
      rw [if_pos (by omega), ih (off + min 0x2000 size) (size - min 0x2000 size) (by omega) (by omega)]
      simp only [Option.some.injEq, slice]
      rw [show file.drop (off + min 0x2000 size) = (file.drop off).drop (min 0x2000 size) by rw [List.drop_drop]]
      conv => rhs; rw [show size = min 0x2000 size + (size - min 0x2000 size) by omega, List.take_add]

end Apk
