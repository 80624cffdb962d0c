import Verif.Model.Wire
import Verif.Spec.Text
/-! # `utf8Valid` accepts exactly the encodings of texts -/
namespace OM.Wire
open OM.Spec

theorem toNat_ofNat_lt {n : Nat} (h : n < 256) : (Char.ofNat n).toNat = n := by
  have hv : n.isValidChar := Or.inl (by omega)
  simp only [Char.ofNat, hv, dif_pos, Char.toNat, Char.ofNatAux]
  rfl

theorem byte_ofNat {n : Nat} (h : n < 256) : (Char.ofNat (UInt8.ofNat n).toNat).toNat = n := by
  rw [UInt8.toNat_ofNat', Nat.mod_eq_of_lt (by omega), toNat_ofNat_lt h]

theorem char_range (c : Char) : c.val.toNat < 0xD800 ∨ (0xDFFF < c.val.toNat ∧ c.val.toNat < 0x110000) := c.valid

theorem fold_char (c : Char) (lo hi : Nat) : ∃ lo' hi', (charBytes c).foldl utf8Step (some (0, lo, hi)) = some (0, lo', hi') := by
  have hr := char_range c
  unfold charBytes String.utf8EncodeChar
  generalize c.val.toNat = v at hr
  dsimp only
  split
  · rename_i h
    refine ⟨0, 0, ?_⟩
    simp only [List.map_cons, List.map_nil, List.foldl_cons, List.foldl_nil, utf8Step]
    rw [byte_ofNat (by omega), if_pos (by omega)]
  · split
    · refine ⟨0x80, 0xBF, ?_⟩
      simp only [List.map_cons, List.map_nil, List.foldl_cons, List.foldl_nil, utf8Step]
      rw [byte_ofNat (by omega), if_neg (by omega), if_pos (by omega)]
      simp only
      rw [byte_ofNat (by omega), if_pos (by omega)]
    · split
      · refine ⟨0x80, 0xBF, ?_⟩
        simp only [List.map_cons, List.map_nil, List.foldl_cons, List.foldl_nil]
        have e : ∃ l h, utf8Step (some (0, lo, hi)) (Char.ofNat (UInt8.ofNat (v / 4096 % 16 + 224)).toNat) = some (2, l, h) ∧
            l ≤ v / 64 % 64 + 128 ∧ v / 64 % 64 + 128 ≤ h := by
          simp only [utf8Step]
          rw [byte_ofNat (by omega), if_neg (by omega), if_neg (by omega)]
          split
          · exact ⟨_, _, rfl, by omega, by omega⟩
          · split
            · exact ⟨_, _, rfl, by omega, by omega⟩
            · rw [if_pos (by omega)]; exact ⟨_, _, rfl, by omega, by omega⟩
        obtain ⟨l, h, e, h1, h2⟩ := e
        rw [e]
        simp only [utf8Step]
        rw [byte_ofNat (by omega), if_pos ⟨h1, h2⟩]
        simp only
        rw [byte_ofNat (by omega), if_pos (by omega)]
      · refine ⟨0x80, 0xBF, ?_⟩
        simp only [List.map_cons, List.map_nil, List.foldl_cons, List.foldl_nil]
        have e : ∃ l h, utf8Step (some (0, lo, hi)) (Char.ofNat (UInt8.ofNat (v / 262144 % 8 + 240)).toNat) = some (3, l, h) ∧
            l ≤ v / 4096 % 64 + 128 ∧ v / 4096 % 64 + 128 ≤ h := by
          simp only [utf8Step]
          rw [byte_ofNat (by omega), if_neg (by omega), if_neg (by omega), if_neg (by omega), if_neg (by omega), if_neg (by omega)]
          split
          · exact ⟨_, _, rfl, by omega, by omega⟩
          · split
            · exact ⟨_, _, rfl, by omega, by omega⟩
            · rw [if_pos (by omega)]; exact ⟨_, _, rfl, by omega, by omega⟩
        obtain ⟨l, h, e, h1, h2⟩ := e
        rw [e]
        simp only [utf8Step]
        rw [byte_ofNat (by omega), if_pos ⟨h1, h2⟩]
        simp only
        rw [byte_ofNat (by omega), if_pos (by omega)]
        simp only
        rw [byte_ofNat (by omega), if_pos (by omega)]

theorem fold_text (text : List Char) : ∀ lo hi : Nat,
    ∃ lo' hi', (text.flatMap charBytes).foldl utf8Step (some (0, lo, hi)) = some (0, lo', hi') := by
  induction text with
  | nil => exact fun lo hi => ⟨lo, hi, rfl⟩
  | cons c cs ih =>
    intro lo hi
    rw [List.flatMap_cons, List.foldl_append]
    obtain ⟨a, b, e⟩ := fold_char c lo hi
    rw [e]
    exact ih a b

theorem fold_none (s : Str) : s.foldl utf8Step none = none := by
  induction s with
  | nil => rfl
  | cons c cs ih => simpa [utf8Step] using ih

/-- A continuation byte is due. -/
theorem fold_due {s : Str} {k lo hi lo' hi' : Nat} (h : s.foldl utf8Step (some (k + 1, lo, hi)) = some (0, lo', hi')) :
    ∃ b rest, s = b :: rest ∧ lo ≤ b.toNat ∧ b.toNat ≤ hi ∧ rest.foldl utf8Step (some (k, 0x80, 0xBF)) = some (0, lo', hi') := by
  cases s with
  | nil => simp at h
  | cons b rest =>
    simp only [List.foldl_cons, utf8Step] at h
    split at h
    · exact ⟨b, rest, rfl, by omega, by omega, h⟩
    · rw [fold_none] at h; cases h

theorem char_val {v : Nat} (h : v < 0xD800 ∨ (0xDFFF < v ∧ v < 0x110000)) : (Char.ofNat v).val.toNat = v := by
  have hv : v.isValidChar := h
  simp only [Char.ofNat, hv, dif_pos, Char.ofNatAux]
  rfl

theorem byte_eq {b : Char} {n : Nat} (h : n = b.toNat) (hn : n < 256) : Char.ofNat (UInt8.ofNat n).toNat = b := by
  rw [UInt8.toNat_ofNat', Nat.mod_eq_of_lt (by omega), h, Char.ofNat_toNat]

theorem text_of_fold : ∀ (n : Nat) (s : Str), s.length ≤ n → ∀ lo hi lo' hi' : Nat,
    s.foldl utf8Step (some (0, lo, hi)) = some (0, lo', hi') → IsText s
  | _, [], _, _, _, _, _, _ => ⟨[], rfl⟩
  | 0, _ :: _, hn, _, _, _, _, _ => by simp at hn
  | n + 1, b :: s, hn, lo, hi, lo', hi', h => by
    have hls : s.length ≤ n := by simpa using hn
    simp only [List.foldl_cons, utf8Step] at h
    have fin : ∀ (v : Nat) (pre rest : Str), (v < 0xD800 ∨ (0xDFFF < v ∧ v < 0x110000)) → charBytes (Char.ofNat v) = pre →
        b :: s = pre ++ rest → pre ≠ [] → (∃ l h : Nat, rest.foldl utf8Step (some (0, l, h)) = some (0, lo', hi')) → IsText (b :: s) := by
      intro v pre rest hv hc hs hne ⟨l, h', hf⟩
      have hlen : rest.length ≤ n := by
        have := congrArg List.length hs
        simp only [List.length_cons, List.length_append] at this
        have := List.length_pos_iff.2 hne
        omega
      obtain ⟨text, ht⟩ := text_of_fold n rest hlen l h' lo' hi' hf
      refine ⟨Char.ofNat v :: text, ?_⟩
      rw [List.flatMap_cons, hc, ← ht, hs]
    by_cases h1 : b.toNat < 0x80
    · rw [if_pos h1] at h
      refine fin b.toNat [b] s (by omega) ?_ rfl (by simp) ⟨_, _, h⟩
      unfold charBytes String.utf8EncodeChar
      rw [char_val (by omega)]
      dsimp only
      rw [if_pos (by omega), List.map_cons, List.map_nil, byte_eq rfl (by omega)]
    rw [if_neg h1] at h
    by_cases h2 : 0xC2 ≤ b.toNat ∧ b.toNat ≤ 0xDF
    · rw [if_pos h2] at h
      obtain ⟨c, r, rfl, c1, c2, h⟩ := fold_due h
      refine fin ((b.toNat - 192) * 64 + (c.toNat - 128)) [b, c] r (by omega) ?_ rfl (by simp) ⟨_, _, h⟩
      unfold charBytes String.utf8EncodeChar
      rw [char_val (by omega)]
      dsimp only
      rw [if_neg (by omega), if_pos (by omega), List.map_cons, List.map_cons, List.map_nil, byte_eq (b := b) (by omega) (by omega),
        byte_eq (b := c) (by omega) (by omega)]
    rw [if_neg h2] at h
    have three : ∀ (l u : Nat), s.foldl utf8Step (some (2, l, u)) = some (0, lo', hi') → 0xE0 ≤ b.toNat → b.toNat ≤ 0xEF →
        128 ≤ l → u ≤ 191 → (b.toNat = 0xE0 → 160 ≤ l) → (b.toNat = 0xED → u ≤ 159) → IsText (b :: s) := by
      intro l u h hb hb' hl hu hx hy
      obtain ⟨c, r, rfl, c1, c2, h⟩ := fold_due h
      obtain ⟨d, r, rfl, d1, d2, h⟩ := fold_due h
      refine fin ((b.toNat - 224) * 4096 + (c.toNat - 128) * 64 + (d.toNat - 128)) [b, c, d] r (by omega) ?_ rfl (by simp) ⟨_, _, h⟩
      unfold charBytes String.utf8EncodeChar
      rw [char_val (by omega)]
      dsimp only
      rw [if_neg (by omega), if_neg (by omega), if_pos (by omega), List.map_cons, List.map_cons, List.map_cons, List.map_nil,
        byte_eq (b := b) (by omega) (by omega), byte_eq (b := c) (by omega) (by omega), byte_eq (b := d) (by omega) (by omega)]
    have four : ∀ (l u : Nat), s.foldl utf8Step (some (3, l, u)) = some (0, lo', hi') → 0xF0 ≤ b.toNat → b.toNat ≤ 0xF4 →
        128 ≤ l → u ≤ 191 → (b.toNat = 0xF0 → 144 ≤ l) → (b.toNat = 0xF4 → u ≤ 143) → IsText (b :: s) := by
      intro l u h hb hb' hl hu hx hy
      obtain ⟨c, r, rfl, c1, c2, h⟩ := fold_due h
      obtain ⟨d, r, rfl, d1, d2, h⟩ := fold_due h
      obtain ⟨e, r, rfl, e1, e2, h⟩ := fold_due h
      refine fin ((b.toNat - 240) * 262144 + (c.toNat - 128) * 4096 + (d.toNat - 128) * 64 + (e.toNat - 128)) [b, c, d, e] r
        (by omega) ?_ rfl (by simp) ⟨_, _, h⟩
      unfold charBytes String.utf8EncodeChar
      rw [char_val (by omega)]
      dsimp only
      rw [if_neg (by omega), if_neg (by omega), if_neg (by omega), List.map_cons, List.map_cons, List.map_cons, List.map_cons,
        List.map_nil, byte_eq (b := b) (by omega) (by omega), byte_eq (b := c) (by omega) (by omega),
        byte_eq (b := d) (by omega) (by omega), byte_eq (b := e) (by omega) (by omega)]
    split at h
    · exact three _ _ h (by omega) (by omega) (by omega) (by omega) (by omega) (by omega)
    split at h
    · exact three _ _ h (by omega) (by omega) (by omega) (by omega) (by omega) (by omega)
    split at h
    · exact three _ _ h (by omega) (by omega) (by omega) (by omega) (by omega) (by omega)
    split at h
    · exact four _ _ h (by omega) (by omega) (by omega) (by omega) (by omega) (by omega)
    split at h
    · exact four _ _ h (by omega) (by omega) (by omega) (by omega) (by omega) (by omega)
    split at h
    · exact four _ _ h (by omega) (by omega) (by omega) (by omega) (by omega) (by omega)
    · rw [fold_none] at h; cases h

theorem utf8Valid_iff (s : Str) : utf8Valid s = true ↔ IsText s := by
  unfold utf8Valid
  constructor
  · intro h
    split at h
    · rename_i h'; exact text_of_fold s.length s (Nat.le_refl _) _ _ _ _ h'
    · cases h
  · rintro ⟨text, rfl⟩
    obtain ⟨a, b, e⟩ := fold_text text 0 0
    rw [e]
    rfl

/-! ## Texts put together -/

theorem utf8Step_none (l : Str) : l.foldl utf8Step none = none := by
  induction l with
  | nil => rfl
  | cons c l ih => simpa [utf8Step] using ih

theorem utf8_start (a b : Nat) (l : Str) : l.foldl utf8Step (some (0, a, b)) = l.foldl utf8Step (some (0, 0, 0)) ∨ l = [] := by
  cases l with
  | nil => exact Or.inr rfl
  | cons c l => left; simp [utf8Step]

theorem utf8Valid_append {a b : Str} (ha : utf8Valid a = true) (hb : utf8Valid b = true) : utf8Valid (a ++ b) = true := by
  unfold utf8Valid at ha hb ⊢
  rw [List.foldl_append]
  match h : a.foldl utf8Step (some (0, 0, 0)) with
  | none => simp [h] at ha
  | some (0, x, y) =>
    rcases utf8_start x y b with h2 | h2
    · rw [h2]; exact hb
    · subst h2; rfl
  | some (k + 1, x, y) => simp [h] at ha

theorem utf8Valid_ascii : ∀ {s : Str}, (∀ c ∈ s, c.toNat < 128) → utf8Valid s = true := by
  intro s h
  unfold utf8Valid
  have : ∀ l : Str, (∀ c ∈ l, c.toNat < 128) → l.foldl utf8Step (some (0, 0, 0)) = some (0, 0, 0) := by
    intro l
    induction l with
    | nil => intro _; rfl
    | cons c l ih =>
      intro hl
      have hc := hl c (List.mem_cons_self ..)
      simp only [List.foldl_cons, utf8Step]
      rw [if_pos (show c.toNat < 0x80 from hc)]
      exact ih fun x hx => hl x (List.mem_cons_of_mem _ hx)
  rw [this s h]; rfl

theorem utf8Valid_cons {c : Char} (hc : c.toNat < 128) {s : Str} (h : utf8Valid s = true) : utf8Valid (c :: s) = true :=
  utf8Valid_append (a := [c]) (utf8Valid_ascii fun x hx => by rw [List.mem_singleton.1 hx]; exact hc) h

theorem isText_append {a b : Str} (ha : IsText a) (hb : IsText b) : IsText (a ++ b) := by
  obtain ⟨x, rfl⟩ := ha
  obtain ⟨y, rfl⟩ := hb
  exact ⟨x ++ y, by simp⟩

theorem isText_ascii {s : Str} (h : ∀ c ∈ s, c.toNat < 128) : IsText s := (utf8Valid_iff s).1 (utf8Valid_ascii h)

theorem isText_nil : IsText [] := ⟨[], rfl⟩

end OM.Wire
