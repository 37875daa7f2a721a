import Verif.Spec.BerRead
import Verif.Proofs.Ber
/-! # The converter reads exactly the grammar of Spec/BerRead -/
namespace Apk

theorem readBE_sound {n : Nat} {r rest : Bytes} {acc v : Nat} (h : readBE n r acc = .ok (v, rest)) :
    ∃ ds, ds.length = n ∧ r = ds ++ rest ∧ v = acc * 256 ^ n + beNat ds := by
  induction n generalizing r acc with
  | zero => simp only [readBE, Except.ok.injEq, Prod.mk.injEq] at h; exact ⟨[], rfl, h.2, by simp [beNat, h.1]⟩
  | succ n ih =>
    cases r with
    | nil => cases h
    | cons c r =>
      rw [readBE] at h
      obtain ⟨ds, h1, h2, h3⟩ := ih h
      refine ⟨c :: ds, by simp [h1], by simp [h2], ?_⟩
      rw [h3, beNat, h1, Nat.pow_succ, Nat.add_mul, Nat.mul_comm (256 ^ n) 256, Nat.mul_assoc, Nat.add_assoc]

theorem readLength_sound {b rest : Bytes} {n : Option Nat} (h : readLength b = .ok (.ok (n, rest))) :
    (n = none ∧ b = 128 :: rest) ∨ ∃ k len, n = some k ∧ BerLen k len ∧ b = len ++ rest := by
  cases b with
  | nil => cases h
  | cons l r =>
    simp only [readLength] at h
    have hlt := l.toNat_lt
    split at h
    · rename_i hl
      split at h
      · cases h
      · rename_i h4
        cases r with
        | nil => cases h
        | cons c r' =>
          simp only at h
          split at h
          · cases h
          · rename_i hneg
            right
            split at h
            · cases h
            · rename_i v rest' hr
              simp only [Except.ok.injEq, Prod.mk.injEq] at h
              obtain ⟨rfl, rfl⟩ := h
              have key : ∃ ds, ds.length = l.toNat % 128 ∧ c :: r' = ds ++ rest' ∧ v = beNat ds := by
                split at hr
                · rename_i hc
                  obtain ⟨ds, h1, h2, h3⟩ := readBE_sound hr
                  refine ⟨c :: ds, ?_, by simp [h2], ?_⟩
                  · simp only [List.length_cons, h1]; omega
                  · rw [h3, beNat, hc]; omega
                · obtain ⟨ds, h1, h2, h3⟩ := readBE_sound hr
                  exact ⟨ds, h1, h2, by rw [h3]; omega⟩
              obtain ⟨ds, h1, h2, h3⟩ := key
              refine ⟨v, l :: ds, rfl, .inr ⟨?_, l, ds, by omega, by omega, by omega, h3.symm, rfl⟩, by rw [h2]; rfl⟩
              rw [h3]
              by_cases h5 : ds.length = 4
              · cases ds with
                | nil => cases h5
                | cons d ds =>
                  have hd : d = c := by simp only [List.cons_append, List.cons.injEq] at h2; exact h2.1.symm
                  have h6 : ds.length = 3 := by simpa using h5
                  have h7 := beNat_lt ds
                  rw [h6] at h7
                  rw [beNat, h6]
                  have : ¬ 127 < d.toNat := fun hh => hneg ⟨by rw [← h1, h5], by rw [← hd]; exact hh⟩
                  omega
              · have h7 := beNat_lt ds
                have : (256 : Nat) ^ ds.length ≤ 256 ^ 3 := Nat.pow_le_pow_right (by omega) (by omega)
                omega
    · split at h
      · rename_i hl
        simp only [Except.ok.injEq, Prod.mk.injEq] at h
        refine .inl ⟨h.1.symm, ?_⟩
        rw [h.2]
        congr 1
        exact UInt8.toNat_inj.1 hl
      · simp only [Except.ok.injEq, Prod.mk.injEq] at h
        exact .inr ⟨l.toNat, [l], h.1.symm, .inl ⟨by omega, l, rfl, rfl⟩, by rw [h.2]; rfl⟩

theorem readLength_indef (rest : Bytes) : readLength (128 :: rest) = .ok (.ok (none, rest)) := rfl

theorem readObject_sound (fuel : Nat) :
    (∀ b o rest, readObject fuel b = .ok (.ok (o, rest)) → BerReads b o rest) ∧
    (∀ b k os rest, readKids fuel b (some k) = .ok (.ok (os, rest)) → BerUntil k b os) ∧
    (∀ b os rest, readKids fuel b none = .ok (.ok (os, rest)) → BerToEnd b os (rest.drop 2) ∧ rest.take 2 = [0, 0]) := by
  induction fuel with
  | zero => exact ⟨fun b o rest h => by simp [readObject] at h, fun b k os rest h => by simp [readKids] at h, fun b os rest h => by simp [readKids] at h⟩
  | succ fuel ih =>
    refine ⟨?_, ?_, ?_⟩
    · intro b o rest h
      simp only [readObject] at h
      split at h
      · simp at h
      rename_i tag b1 ht
      obtain ⟨htag, rfl⟩ := readTag_sound ht
      split at h
      · simp at h
      · simp at h
      · rename_i b2 hl
        rcases readLength_sound hl with ⟨_, rfl⟩ | ⟨_, _, hn, _⟩
        · split at h
          · rename_i hcon
            split at h
            · simp at h
            · simp at h
            · rename_i kids rest' hk
              simp only [Except.ok.injEq, Prod.mk.injEq] at h
              obtain ⟨rfl, rfl⟩ := h
              have := BerReads.indef (conTag_of htag hcon) (ih.2.2 _ _ _ hk).1
              simpa using this
          · simp at h
        · cases hn
      · rename_i n b2 hl
        rcases readLength_sound hl with ⟨hn, _⟩ | ⟨_, len, hn, hb, rfl⟩
        · cases hn
        · cases hn
          split at h
          · simp at h
          rename_i hle
          have hlen : (b2.take n).length = n := by rw [List.length_take]; omega
          have hsplit : tag ++ (len ++ b2) = tag ++ len ++ b2.take n ++ b2.drop n := by simp
          split at h
          · rename_i hcon
            split at h
            · simp at h
            · simp at h
            · rename_i kids rest' hk
              simp only [Except.ok.injEq, Prod.mk.injEq] at h
              obtain ⟨rfl, rfl⟩ := h
              rw [hsplit]
              refine .con (conTag_of htag hcon) (by rw [hlen]; exact hb) ?_
              rw [List.length_drop, List.take_append_drop]
              exact ih.2.1 _ _ _ _ hk
          · rename_i hcon
            simp only [Except.ok.injEq, Prod.mk.injEq] at h
            obtain ⟨rfl, rfl⟩ := h
            rw [hsplit]
            exact .prim (primTag_of htag (by simpa using hcon)) (by rw [hlen]; exact hb)
    · intro b k os rest h
      simp only [readKids] at h
      split at h
      · rename_i hk0
        split at h
        · simp at h
        · simp at h
        · rename_i o r ho
          split at h
          · simp at h
          · simp at h
          · rename_i os' r' hk
            simp only [Except.ok.injEq, Prod.mk.injEq] at h
            obtain ⟨rfl, -⟩ := h
            exact .next hk0 (ih.1 _ _ _ ho) (ih.2.1 _ _ _ _ hk)
      · simp only [Except.ok.injEq, Prod.mk.injEq] at h
        obtain ⟨rfl, -⟩ := h
        exact .stop (by omega)
    · intro b os rest h
      simp only [readKids] at h
      split at h
      · simp at h
      · simp at h
      · rename_i o r ho
        split at h
        · simp at h
        rename_i h2
        split at h
        · rename_i hz
          simp only [Except.ok.injEq, Prod.mk.injEq] at h
          obtain ⟨rfl, rfl⟩ := h
          refine ⟨.last ?_, hz⟩
          have : r = 0 :: 0 :: r.drop 2 := by
            conv => lhs; rw [← List.take_append_drop 2 r, hz]
            rfl
          rw [← this]
          exact ih.1 _ _ _ ho
        · rename_i hz
          split at h
          · simp at h
          · simp at h
          · rename_i os' r' hk
            simp only [Except.ok.injEq, Prod.mk.injEq] at h
            obtain ⟨rfl, rfl⟩ := h
            exact ⟨.next (ih.1 _ _ _ ho) (by omega) hz (ih.2.2 _ _ _ hk).1, (ih.2.2 _ _ _ hk).2⟩

/-! ## Completeness -/

theorem readObject_prim {tag len content rest : Bytes} (ht : PrimTag tag) (hl : BerLen content.length len) (fuel : Nat) :
    readObject (fuel + 1) (tag ++ len ++ content ++ rest) = .ok (.ok (.prim tag content, rest)) := by
  rw [List.append_assoc, List.append_assoc, readObject, readTag_spec ht.1]
  simp only [readLength_ber hl, constructed_prim ht]
  simp

theorem readObject_con {tag len body rest : Bytes} (ht : ConTag tag) (hl : BerLen body.length len) (fuel : Nat) :
    readObject (fuel + 1) (tag ++ len ++ body ++ rest) =
      match readKids fuel (body ++ rest) (some rest.length) with
      | .error p => .error p
      | .ok (.error e) => .ok (.error e)
      | .ok (.ok (kids, _)) => .ok (.ok (.con tag kids, rest)) := by
  rw [List.append_assoc, List.append_assoc, readObject, readTag_spec ht.1]
  simp only [readLength_ber hl, constructed_con ht, List.length_append]
  rw [if_neg (by omega), if_pos trivial, show body.length + rest.length - body.length = rest.length from by omega]
  simp only [List.drop_left]
  rfl

theorem readObject_indef {tag b : Bytes} (ht : ConTag tag) (fuel : Nat) :
    readObject (fuel + 1) (tag ++ [128] ++ b) =
      match readKids fuel b none with
      | .error p => .error p
      | .ok (.error e) => .ok (.error e)
      | .ok (.ok (kids, rest)) => .ok (.ok (.con tag kids, rest.drop 2)) := by
  rw [List.append_assoc, readObject, readTag_spec ht.1]
  simp only [List.singleton_append, readLength_indef, constructed_con ht, if_true]
  rfl

theorem tag_pos {t : Bytes} (h : ConTag t) : 1 ≤ t.length := h.1.pos

theorem BerReads.shrinks {b r : Bytes} {o : Asn1} (h : BerReads b o r) : r.length + 2 ≤ b.length := by
  cases h with
  | prim ht hl => have := ht.1.pos; have := hl.pos; simp; omega
  | con ht hl hk => have := ht.1.pos; have := hl.pos; simp; omega
  | indef ht hk =>
    have := ht.1.pos
    have key : ∀ {b : Bytes} {os : List Asn1} {r : Bytes}, BerToEnd b os r → r.length ≤ b.length := by
      intro b os r h
      exact BerToEnd.rec (motive_1 := fun b _ r _ => r.length ≤ b.length) (motive_2 := fun _ _ _ _ => True)
        (motive_3 := fun b _ r _ => r.length ≤ b.length)
        (fun _ _ => by simp; omega) (fun _ _ _ _ => by simp; omega) (fun _ _ ih => by simp; omega)
        (fun _ => trivial) (fun _ _ _ _ _ => trivial) (fun _ ih => by simp at ih; omega) (fun _ _ _ _ ih1 ih2 => by omega) h
    have := key hk
    simp; omega

mutual
theorem BerReads.read {b r : Bytes} {o : Asn1} (h : BerReads b o r) (fuel : Nat) (hf : b.length < fuel) : readObject fuel b = .ok (.ok (o, r)) := by
  obtain ⟨fuel, rfl⟩ : ∃ f, fuel = f + 1 := ⟨fuel - 1, by omega⟩
  cases h with
  | prim ht hl => exact readObject_prim ht hl fuel
  | con ht hl hk =>
    have := ht.1.pos
    have := hl.pos
    simp only [List.length_append] at hf
    obtain ⟨r', h⟩ := hk.read fuel (by simp; omega)
    rw [readObject_con ht hl, h]
  | indef ht hk =>
    have := ht.1.pos
    simp only [List.length_append, List.length_singleton] at hf
    obtain ⟨r', h, h2⟩ := hk.read fuel (by omega)
    rw [readObject_indef ht, h]
    simp only [h2]
theorem BerUntil.read {k : Nat} {b : Bytes} {os : List Asn1} (h : BerUntil k b os) (fuel : Nat) (hf : b.length + 1 < fuel) :
    ∃ r, readKids fuel b (some k) = .ok (.ok (os, r)) := by
  obtain ⟨fuel, rfl⟩ : ∃ f, fuel = f + 1 := ⟨fuel - 1, by omega⟩
  cases h with
  | stop hk => exact ⟨b, by rw [readKids, if_neg (by omega)]⟩
  | next hk h1 h2 =>
    have hs := h1.shrinks
    obtain ⟨r', h⟩ := h2.read fuel (by omega)
    exact ⟨r', by rw [readKids, if_pos hk, h1.read fuel (by omega)]; simp only [h]⟩
theorem BerToEnd.read {b : Bytes} {os : List Asn1} {r : Bytes} (h : BerToEnd b os r) (fuel : Nat) (hf : b.length + 1 < fuel) :
    ∃ r', readKids fuel b none = .ok (.ok (os, r')) ∧ r'.drop 2 = r := by
  obtain ⟨fuel, rfl⟩ : ∃ f, fuel = f + 1 := ⟨fuel - 1, by omega⟩
  cases h with
  | last h1 =>
    refine ⟨0 :: 0 :: r, ?_, rfl⟩
    rw [readKids, h1.read fuel (by omega)]
    simp only [List.length_cons]
    rw [if_neg (by omega), if_pos (show List.take 2 (0 :: 0 :: r) = [0, 0] from rfl)]
  | next h1 h2 h3 h4 =>
    have hs := h1.shrinks
    obtain ⟨r', h, hd⟩ := h4.read fuel (by omega)
    refine ⟨r', ?_, hd⟩
    rw [readKids, h1.read fuel (by omega)]
    simp only
    rw [if_neg (by omega), if_neg h3, h]
end

/-! ## Panics -/

theorem berLen_short {x : UInt8} {ds : Bytes} (hx : 128 < x.toNat) (h4 : x.toNat % 128 ≤ 4) (hd : ds.length < x.toNat % 128)
    (hn : ∀ d t, ds = d :: t → x.toNat % 128 = 4 → d.toNat ≤ 127) : ∃ ext n, ext ≠ [] ∧ BerLen n (x :: ds ++ ext) := by
  have hlt := x.toNat_lt
  refine ⟨List.replicate (x.toNat % 128 - ds.length) 0, beNat (ds ++ List.replicate (x.toNat % 128 - ds.length) 0), ?_, .inr ⟨?_, x, _, ?_, ?_, ?_, rfl, rfl⟩⟩
  · intro h
    have := congrArg List.length h
    simp at this
    omega
  · have hl : (ds ++ List.replicate (x.toNat % 128 - ds.length) 0).length = x.toNat % 128 := by simp; omega
    by_cases h5 : x.toNat % 128 = 4
    · cases ds with
      | nil => rw [h5]; decide
      | cons d t =>
        have hd' := hn d t rfl h5
        rw [List.cons_append] at hl ⊢
        rw [beNat]
        have h6 : (t ++ List.replicate (x.toNat % 128 - (d :: t).length) 0).length = 3 := by
          rw [List.length_cons] at hl
          omega
        have h7 := beNat_lt (t ++ List.replicate (x.toNat % 128 - (d :: t).length) 0)
        rw [h6] at h7 ⊢
        omega
    · have h7 := beNat_lt (ds ++ List.replicate (x.toNat % 128 - ds.length) 0)
      rw [hl] at h7
      have : (256 : Nat) ^ (x.toNat % 128) ≤ 256 ^ 3 := Nat.pow_le_pow_right (by omega) (by omega)
      omega
  · simp; omega
  · simp; omega
  · simp; omega

theorem readBE_panic {n : Nat} {r : Bytes} {acc : Nat} {p : Panic} (h : readBE n r acc = .error p) : r.length < n := by
  induction n generalizing r acc with
  | zero => cases h
  | succ n ih =>
    cases r with
    | nil => simp
    | cons c r => rw [readBE] at h; have := ih h; simp; omega

theorem readBE_short {n : Nat} {r : Bytes} {acc : Nat} (h : r.length < n) : readBE n r acc = .error .indexOutOfRange := by
  induction n generalizing r acc with
  | zero => omega
  | succ n ih =>
    cases r with
    | nil => rfl
    | cons c r => rw [readBE, ih (by simpa using h)]

theorem readLength_panic {b : Bytes} {p : Panic} (h : readLength b = .error p) : ∃ ext n, ext ≠ [] ∧ BerLen n (b ++ ext) := by
  cases b with
  | nil => exact ⟨[0], 0, by simp, .inl ⟨by decide, 0, rfl, rfl⟩⟩
  | cons l r =>
    simp only [readLength] at h
    split at h
    · rename_i hl
      split at h
      · cases h
      · rename_i h4
        have hlt := l.toNat_lt
        cases r with
        | nil => exact berLen_short hl (by omega) (by simp; omega) (by intro d t h; cases h)
        | cons c r' =>
          simp only at h
          split at h
          · cases h
          · rename_i hneg
            have hshort : (c :: r').length < l.toNat % 128 := by
              split at h
              · rename_i p' hr
                split at hr
                · have := readBE_panic hr; simp; omega
                · exact readBE_panic hr
              · cases h
            refine berLen_short hl (by omega) hshort ?_
            intro d t e h5
            cases e
            exact Classical.byContradiction (fun hc => hneg ⟨h5, by omega⟩)
    · split at h <;> cases h

theorem readLength_short {b ext : Bytes} {n : Nat} (he : ext ≠ []) (h : BerLen n (b ++ ext)) : readLength b = .error .indexOutOfRange := by
  cases b with
  | nil => rfl
  | cons l r =>
    rcases h with ⟨h1, x, hx, h2⟩ | ⟨h1, x, ds, hx, h2, h3, hb, h4⟩
    · simp only [List.cons_append, List.cons.injEq, List.append_eq_nil_iff] at h2
      exact absurd h2.2.2 he
    · simp only [List.cons_append, List.cons.injEq] at h4
      obtain ⟨rfl, h4⟩ := h4
      have hel : 1 ≤ ext.length := by cases ext with | nil => exact absurd rfl he | cons _ _ => simp
      have hlen : r.length + ext.length = ds.length := by rw [← h4]; simp
      have hm : l.toNat % 128 = ds.length := by omega
      simp only [readLength]
      rw [if_pos (by omega), if_neg (by omega)]
      cases r with
      | nil => rfl
      | cons c r' =>
        simp only
        rw [if_neg]
        · by_cases hc : c.toNat = 0
          · rw [if_pos hc, readBE_short (by simp at hlen; omega)]
          · rw [if_neg hc, readBE_short (by omega)]
        · rintro ⟨e1, e2⟩
          rw [← h4] at hb
          have hl3 : (r' ++ ext).length = 3 := by simp at hlen ⊢; omega
          rw [List.cons_append, beNat, hl3] at hb
          omega

theorem readHighTag_panic {b : Bytes} {p : Panic} (h : readHighTag b = .error p) : ∀ c ∈ b, 128 ≤ c.toNat := by
  induction b with
  | nil => intro c hc; cases hc
  | cons y r ih =>
    rw [readHighTag] at h
    split at h
    · rename_i hy
      split at h
      · rename_i hr
        intro c hc
        rcases List.mem_cons.1 hc with rfl | hc
        · exact hy
        · exact ih (by rw [hr]; exact h ▸ rfl) c hc
      · cases h
    · cases h

theorem readHighTag_short {b : Bytes} (h : ∀ c ∈ b, 128 ≤ c.toNat) : readHighTag b = .error .indexOutOfRange := by
  induction b with
  | nil => rfl
  | cons y r ih =>
    rw [readHighTag, if_pos (h y List.mem_cons_self), ih (fun c hc => h c (List.mem_cons_of_mem _ hc))]

theorem readTag_panic {b : Bytes} {p : Panic} (h : readTag b = .error p) : ShortHeader b := by
  cases b with
  | nil => exact ⟨[0, 128], by simp, [0], [128], .inl ⟨0, by decide, rfl⟩, .inl rfl, rfl⟩
  | cons x r =>
    rw [readTag] at h
    split at h
    · rename_i hx
      split at h
      · rename_i hr
        exact ⟨[0, 128], by simp, x :: (r ++ [0]), [128], .inr ⟨x, r, 0, hx, readHighTag_panic hr, by decide, rfl⟩, .inl rfl, by simp⟩
      · cases h
    · cases h

/-- A tag is read from the start of a header, also if the header is cut off behind it; otherwise the reading panics. -/
theorem shortHeader_cases {b : Bytes} (h : ShortHeader b) :
    readTag b = .error .indexOutOfRange ∨ ∃ tag b1, readTag b = .ok (tag, b1) ∧ readLength b1 = .error .indexOutOfRange := by
  obtain ⟨ext, he, tag, len, ht, hlen, e⟩ := h
  rcases List.append_eq_append_iff.1 e with ⟨m, e1, e2⟩ | ⟨m, e1, e2⟩
  · -- the bytes end within the tag or right after it
    by_cases hm : m = []
    · subst hm
      rw [List.append_nil] at e1
      right
      refine ⟨tag, [], ?_, rfl⟩
      have := readTag_spec ht []
      rw [List.append_nil] at this
      rw [← e1]
      exact this
    · left
      rcases ht with ⟨x, hx, rfl⟩ | ⟨x, hs, y, hx, h1, h2, rfl⟩
      · cases b with
        | nil => rfl
        | cons z b =>
          simp only [List.cons_append, List.cons.injEq] at e1
          have := congrArg List.length e1.2
          simp at this
          exact absurd (List.eq_nil_of_length_eq_zero (by omega)) hm
      · cases b with
        | nil => rfl
        | cons z b =>
          simp only [List.cons_append, List.cons.injEq] at e1
          obtain ⟨rfl, e3⟩ := e1
          rw [readTag, if_pos hx, readHighTag_short]
          intro c hc
          have hpre : b <+: hs := by
            obtain ⟨m', y', rfl⟩ : ∃ m' y', m = m' ++ [y'] := ⟨m.dropLast, m.getLast hm, (List.dropLast_concat_getLast hm).symm⟩
            rw [← List.append_assoc] at e3
            exact ⟨m', (List.append_inj_left' e3 rfl).symm⟩
          exact h1 c (hpre.subset hc)
  · right
    refine ⟨tag, m, by rw [e1]; exact readTag_spec ht m, ?_⟩
    rcases hlen with rfl | ⟨n, hl⟩
    · cases m with
      | nil => rfl
      | cons z m =>
        simp only [List.cons_append, List.cons.injEq] at e2
        exact absurd (List.append_eq_nil_iff.1 e2.2.symm).2 he
    · rw [e2] at hl
      exact readLength_short he hl

theorem readObject_panic_sound (fuel : Nat) :
    (∀ b p, readObject fuel b = .error p → RunsOff b) ∧
    (∀ b k p, readKids fuel b (some k) = .error p → OffUntil k b) ∧
    (∀ b p, readKids fuel b none = .error p → OffToEnd b) := by
  induction fuel with
  | zero => exact ⟨fun b p h => by simp [readObject] at h, fun b k p h => by simp [readKids] at h, fun b p h => by simp [readKids] at h⟩
  | succ fuel ih =>
    refine ⟨?_, ?_, ?_⟩
    · intro b p h
      simp only [readObject] at h
      split at h
      · rename_i ht; exact .header (readTag_panic ht)
      rename_i tag b1 ht
      obtain ⟨htag, rfl⟩ := readTag_sound ht
      split at h
      · rename_i hl
        obtain ⟨ext, n, he, hb⟩ := readLength_panic hl
        exact .header ⟨ext, he, tag, b1 ++ ext, htag, .inr ⟨n, hb⟩, by simp⟩
      · simp at h
      · rename_i b2 hl
        rcases readLength_sound hl with ⟨_, rfl⟩ | ⟨_, _, hn, _⟩
        · split at h
          · rename_i hcon
            split at h
            · rename_i hk
              have := RunsOff.indef (conTag_of htag hcon) (ih.2.2 _ _ hk)
              simpa using this
            · simp at h
            · simp at h
          · simp at h
        · cases hn
      · rename_i n b2 hl
        rcases readLength_sound hl with ⟨hn, _⟩ | ⟨_, len, hn, hb, rfl⟩
        · cases hn
        · cases hn
          split at h
          · simp at h
          rename_i hle
          have hlen : (b2.take n).length = n := by rw [List.length_take]; omega
          have hsplit : tag ++ (len ++ b2) = tag ++ len ++ b2.take n ++ b2.drop n := by simp
          split at h
          · rename_i hcon
            split at h
            · rename_i hk
              rw [hsplit]
              refine .con (conTag_of htag hcon) (by rw [hlen]; exact hb) ?_
              rw [List.length_drop, List.take_append_drop]
              exact ih.2.1 _ _ _ hk
            · simp at h
            · simp at h
          · simp at h
    · intro b k p h
      simp only [readKids] at h
      split at h
      · rename_i hk0
        split at h
        · rename_i ho; exact .here hk0 (ih.1 _ _ ho)
        · simp at h
        · rename_i o r ho
          split at h
          · rename_i hk
            exact .next hk0 ((readObject_sound fuel).1 _ _ _ ho) (ih.2.1 _ _ _ hk)
          · simp at h
          · simp at h
      · simp at h
    · intro b p h
      simp only [readKids] at h
      split at h
      · rename_i ho; exact .here (ih.1 _ _ ho)
      · simp at h
      · rename_i o r ho
        split at h
        · simp at h
        rename_i h2
        split at h
        · simp at h
        · rename_i hz
          split at h
          · rename_i hk
            exact .next ((readObject_sound fuel).1 _ _ _ ho) (by omega) hz (ih.2.2 _ _ hk)
          · simp at h
          · simp at h

mutual
theorem RunsOff.read {b : Bytes} (h : RunsOff b) (fuel : Nat) (hf : b.length < fuel) : ∃ p, readObject fuel b = .error p := by
  obtain ⟨fuel, rfl⟩ : ∃ f, fuel = f + 1 := ⟨fuel - 1, by omega⟩
  cases h with
  | header hs =>
    refine ⟨.indexOutOfRange, ?_⟩
    rcases shortHeader_cases hs with h | ⟨tag, b1, h1, h2⟩
    · rw [readObject, h]
    · rw [readObject, h1]; simp only [h2]
  | con ht hl hk =>
    have := ht.1.pos
    have := hl.pos
    simp only [List.length_append] at hf
    obtain ⟨p, h⟩ := hk.read fuel (by simp; omega)
    exact ⟨p, by rw [readObject_con ht hl, h]⟩
  | indef ht hk =>
    have := ht.1.pos
    simp only [List.length_append, List.length_singleton] at hf
    obtain ⟨p, h⟩ := hk.read fuel (by omega)
    exact ⟨p, by rw [readObject_indef ht, h]⟩
theorem OffUntil.read {k : Nat} {b : Bytes} (h : OffUntil k b) (fuel : Nat) (hf : b.length + 1 < fuel) : ∃ p, readKids fuel b (some k) = .error p := by
  obtain ⟨fuel, rfl⟩ : ∃ f, fuel = f + 1 := ⟨fuel - 1, by omega⟩
  cases h with
  | here hk h1 =>
    obtain ⟨p, h⟩ := h1.read fuel (by omega)
    exact ⟨p, by rw [readKids, if_pos hk, h]⟩
  | next hk h1 h2 =>
    have hs := h1.shrinks
    obtain ⟨p, h⟩ := h2.read fuel (by omega)
    exact ⟨p, by rw [readKids, if_pos hk, h1.read fuel (by omega)]; simp only [h]⟩
theorem OffToEnd.read {b : Bytes} (h : OffToEnd b) (fuel : Nat) (hf : b.length + 1 < fuel) : ∃ p, readKids fuel b none = .error p := by
  obtain ⟨fuel, rfl⟩ : ∃ f, fuel = f + 1 := ⟨fuel - 1, by omega⟩
  cases h with
  | here h1 =>
    obtain ⟨p, h⟩ := h1.read fuel (by omega)
    exact ⟨p, by rw [readKids, h]⟩
  | next h1 h2 h3 h4 =>
    have hs := h1.shrinks
    obtain ⟨p, h⟩ := h4.read fuel (by omega)
    refine ⟨p, ?_⟩
    rw [readKids, h1.read fuel (by omega)]
    simp only
    rw [if_neg (by omega), if_neg h3, h]
end

theorem ber2der_iff {b d : Bytes} : ber2der b = .ok (.ok d) ↔ ∃ t r, BerReads b t r ∧ d = t.encode := by
  constructor
  · intro h
    obtain ⟨o, rest, hr, rfl⟩ := ber2der_ok h
    exact ⟨o, rest, (readObject_sound _).1 _ _ _ hr, rfl⟩
  · rintro ⟨t, r, h, rfl⟩
    have hs := h.shrinks
    unfold ber2der
    rw [if_neg (by rintro rfl; simp at hs), h.read _ (by omega)]

theorem ber2der_panic_iff {b : Bytes} : (∃ p, ber2der b = .error p) ↔ b ≠ [] ∧ RunsOff b := by
  unfold ber2der
  constructor
  · rintro ⟨p, h⟩
    split at h
    · cases h
    · rename_i hb
      split at h
      · rename_i hr
        exact ⟨hb, (readObject_panic_sound _).1 _ _ hr⟩
      · cases h
      · cases h
  · rintro ⟨hb, h⟩
    obtain ⟨p, hp⟩ := h.read (b.length + 1) (by omega)
    exact ⟨p, by rw [if_neg hb, hp]⟩

end Apk
