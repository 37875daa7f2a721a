import Verif.Proofs.Digest
namespace Apk

theorem flatten_fixed_inj {s : Nat} (hs : 0 < s) {as bs : List Bytes} (ha : ∀ a ∈ as, a.length = s)
    (hb : ∀ b ∈ bs, b.length = s) (h : as.flatten = bs.flatten) : as = bs := by
  induction as generalizing bs with
  | nil =>
    cases bs with
    | nil => rfl
    | cons b bs =>
      have := congrArg List.length h
      simp only [List.flatten_nil, List.length_nil, List.flatten_cons, List.length_append] at this
      have := hb b (by simp)
      omega
  | cons a as ih =>
    cases bs with
    | nil =>
      have := congrArg List.length h
      simp only [List.flatten_nil, List.length_nil, List.flatten_cons, List.length_append] at this
      have := ha a (by simp)
      omega
    | cons b bs =>
      simp only [List.flatten_cons] at h
      simp only [List.mem_cons, forall_eq_or_imp] at ha hb
      obtain ⟨h1, h2⟩ := List.append_inj h (by rw [ha.1, hb.1])
      rw [h1, ih ha.2 hb.2 h2]

theorem CollisionIn.mono {H : Bytes → Bytes} {as bs as' bs' : List Bytes} (h : CollisionIn H as bs)
    (ha : ∀ x ∈ as, x ∈ as') (hb : ∀ x ∈ bs, x ∈ bs') : CollisionIn H as' bs' := by
  obtain ⟨x, hx, y, hy, hne, he⟩ := h
  exact ⟨x, ha x hx, y, hb y hy, hne, he⟩

/-- Pointwise equal digests of injectively encoded items: equal items or a collision. -/
theorem map_hash_inj {H : Bytes → Bytes} {msg : Bytes → Bytes} (hinj : ∀ a b, msg a = msg b → a = b) {as bs : List Bytes}
    (h : as.map (fun c => H (msg c)) = bs.map (fun c => H (msg c))) :
    as = bs ∨ CollisionIn H (as.map msg) (bs.map msg) := by
  induction as generalizing bs with
  | nil => cases bs with
    | nil => exact Or.inl rfl
    | cons b bs => simp at h
  | cons a as ih =>
    cases bs with
    | nil => simp at h
    | cons b bs =>
      simp only [List.map_cons, List.cons.injEq] at h
      by_cases hab : msg a = msg b
      · rcases ih h.2 with h1 | h1
        · left; rw [hinj _ _ hab, h1]
        · right; exact h1.mono (fun x hx => by simp only [List.map_cons, List.mem_cons]; exact Or.inr hx)
            (fun x hx => by simp only [List.map_cons, List.mem_cons]; exact Or.inr hx)
      · right
        exact ⟨msg a, by simp, msg b, by simp, hab, h.1⟩

theorem chunkMsg_inj (a b : Bytes) (h : chunkMsg a = chunkMsg b) : a = b := by
  unfold chunkMsg at h
  exact (List.append_inj h (by simp)).2

theorem pageMsg_inj (a b : Bytes) (h : pageMsg a = pageMsg b) : a = b := by
  unfold pageMsg at h
  exact List.append_cancel_left h

theorem chunkedDigest_binding {H : Bytes → Bytes} {s : Nat} (hs : 0 < s) (hH : ∀ b, (H b).length = s) {secs secs' : List Bytes}
    (h : chunkedDigest H secs = chunkedDigest H secs') :
    mibChunks secs = mibChunks secs' ∨ CollisionIn H (chunkedHashed H secs) (chunkedHashed H secs') := by
  unfold chunkedDigest at h
  by_cases ht : topMsg H (mibChunks secs) = topMsg H (mibChunks secs')
  · unfold topMsg at ht
    have h1 := (List.append_inj ht (by simp)).2
    have h2 := flatten_fixed_inj hs (by simp [hH]) (by simp [hH]) h1
    rcases map_hash_inj chunkMsg_inj h2 with h3 | h3
    · exact Or.inl h3
    · right
      unfold chunkedHashed
      exact h3.mono (fun x hx => List.mem_cons_of_mem _ hx) (fun x hx => List.mem_cons_of_mem _ hx)
  · right
    exact ⟨_, List.mem_cons_self, _, List.mem_cons_self, ht, h⟩

theorem mibChunks_flatten (secs : List Bytes) : (mibChunks secs).flatten = secs.flatten := by
  induction secs with
  | nil => rfl
  | cons a secs ih =>
    have : mibChunks (a :: secs) = cut 1048576 a ++ mibChunks secs := rfl
    rw [this, List.flatten_append, ih, cut_flatten (by decide), List.flatten_cons]

/-! ## Merkle tree -/

theorem padPage_length (b : Bytes) : (padPage b).length = 4096 * ((b.length + 4095) / 4096) := by
  unfold padPage
  rw [List.length_append, List.length_replicate]
  omega

theorem padPage_inj {a b : Bytes} (hl : a.length = b.length) (h : padPage a = padPage b) : a = b := by
  unfold padPage at h
  exact (List.append_inj h hl).1

theorem pages_length (b : Bytes) : (pages b).length = (b.length + 4095) / 4096 := by
  unfold pages
  rw [cut_length (by decide), padPage_length]
  omega

theorem pages_mem (b p : Bytes) (hp : p ∈ pages b) : p.length = 4096 :=
  cut_mem_full (by decide) _ _ (by rw [padPage_length]; omega) hp

theorem flatten_map_length {α : Type} {s : Nat} (f : α → Bytes) (hf : ∀ a, (f a).length = s) (l : List α) :
    (l.map f).flatten.length = l.length * s := by
  induction l with
  | nil => simp
  | cons a l ih => simp only [List.map_cons, List.flatten_cons, List.length_append, hf, ih, List.length_cons]; rw [Nat.add_mul]; omega

theorem merkleLevel_length {H : Bytes → Bytes} (hH : ∀ b, (H b).length = 32) (b : Bytes) :
    (merkleLevel H b).length = 4096 * (((b.length + 4095) / 4096 * 32 + 4095) / 4096) := by
  unfold merkleLevel
  rw [padPage_length, flatten_map_length _ (fun _ => hH _), pages_length]

theorem merkleLevel_inj {H : Bytes → Bytes} (hH : ∀ b, (H b).length = 32) {a b : Bytes} (hl : a.length = b.length)
    (h : merkleLevel H a = merkleLevel H b) :
    a = b ∨ CollisionIn H ((pages a).map pageMsg) ((pages b).map pageMsg) := by
  unfold merkleLevel at h
  have h1 := padPage_inj (by rw [flatten_map_length _ (fun _ => hH _), flatten_map_length _ (fun _ => hH _), pages_length, pages_length, hl]) h
  have h2 := flatten_fixed_inj (s := 32) (by decide) (by simp [hH]) (by simp [hH]) h1
  rcases map_hash_inj pageMsg_inj h2 with h3 | h3
  · left
    exact padPage_inj hl (cut_inj (by decide) h3)
  · exact Or.inr h3

theorem merkleTop_inj {H : Bytes → Bytes} (hH : ∀ b, (H b).length = 32) (fuel : Nat) {a b : Bytes} (hl : a.length = b.length)
    (h : merkleTop H fuel a = merkleTop H fuel b) :
    a = b ∨ CollisionIn H (merkleHashedAux H fuel a) (merkleHashedAux H fuel b) := by
  induction fuel generalizing a b with
  | zero => exact merkleLevel_inj hH hl h
  | succ fuel ih =>
    have hlev : (merkleLevel H a).length = (merkleLevel H b).length := by
      rw [merkleLevel_length hH, merkleLevel_length hH, hl]
    unfold merkleTop at h
    unfold merkleHashedAux
    have lift : (a = b ∨ CollisionIn H ((pages a).map pageMsg) ((pages b).map pageMsg)) → ∀ x y : List Bytes,
        a = b ∨ CollisionIn H ((pages a).map pageMsg ++ x) ((pages b).map pageMsg ++ y) := by
      intro h x y
      rcases h with h | h
      · exact Or.inl h
      · exact Or.inr (h.mono (fun _ hx => List.mem_append_left _ hx) (fun _ hx => List.mem_append_left _ hx))
    by_cases h4 : (merkleLevel H a).length ≤ 4096
    · rw [if_pos h4, if_pos (by omega)] at h
      exact lift (merkleLevel_inj hH hl h) _ _
    · rw [if_neg h4, if_neg (by omega)] at h
      rw [if_neg h4, if_neg (by omega)]
      rcases ih hlev h with h1 | h1
      · exact lift (merkleLevel_inj hH hl h1) _ _
      · exact Or.inr (h1.mono (fun _ hx => List.mem_append_right _ hx) (fun _ hx => List.mem_append_right _ hx))

theorem veritySpec_binding {H : Bytes → Bytes} (hH : ∀ b, (H b).length = 32) {a b : Bytes}
    (ha : a.length < 2 ^ 64) (hb : b.length < 2 ^ 64) (h : veritySpec H a = veritySpec H b) :
    a = b ∨ CollisionIn H (merkleHashed H a) (merkleHashed H b) := by
  unfold veritySpec merkleRoot at h
  obtain ⟨h1, h2⟩ := List.append_inj h (by rw [hH, hH])
  have hl : a.length = b.length := leBytes_inj h2 ha hb
  rw [hl] at h1
  unfold merkleHashed
  rw [hl]
  by_cases ht : pageMsg (merkleTop H b.length a) = pageMsg (merkleTop H b.length b)
  · rcases merkleTop_inj hH _ hl (pageMsg_inj _ _ ht) with h3 | h3
    · exact Or.inl h3
    · exact Or.inr (h3.mono (fun _ hx => List.mem_cons_of_mem _ hx) (fun _ hx => List.mem_cons_of_mem _ hx))
  · exact Or.inr ⟨_, List.mem_cons_self, _, List.mem_cons_self, ht, h1⟩

end Apk
