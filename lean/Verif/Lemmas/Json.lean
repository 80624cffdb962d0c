import Verif.Spec.Json
import Verif.Lemmas.Utf8
import Verif.Lemmas.Serve
import Mathlib.Tactic.IntervalCases
/-! # The JSON reader reads what the grammar says -/
namespace OM.Json
open OM OM.Spec

/-! ## Strings -/

theorem char_eq_ofNat {c : Char} {n : Nat} (h : c.toNat = n) : c = Char.ofNat n := by
  subst h; exact (Char.ofNat_toNat c).symm

theorem hexVal_iff (c : Char) (n : Nat) : hexVal c = some n ↔ HexDigit c n := by
  have le_iff : ∀ a b : Char, a ≤ b ↔ a.toNat ≤ b.toNat := fun a b => Iff.rfl
  constructor
  · intro h
    unfold hexVal at h
    simp only [le_iff] at h
    split at h
    · rename_i hc
      cases h
      have h1 : 48 ≤ c.toNat := hc.1
      have h2 : c.toNat ≤ 57 := hc.2
      generalize hk : c.toNat = k at *
      rw [char_eq_ofNat hk]
      left
      interval_cases k <;> decide
    · split at h
      · rename_i hc
        cases h
        have h1 : 97 ≤ c.toNat := hc.1
        have h2 : c.toNat ≤ 102 := hc.2
        generalize hk : c.toNat = k at *
        rw [char_eq_ofNat hk]
        left
        interval_cases k <;> decide
      · split at h
        · rename_i hc
          cases h
          have h1 : 65 ≤ c.toNat := hc.1
          have h2 : c.toNat ≤ 70 := hc.2
          generalize hk : c.toNat = k at *
          rw [char_eq_ofNat hk]
          right
          interval_cases k <;> decide
        · cases h
  · intro h
    have hn : n < 16 := by
      rcases h with h | h <;> exact (List.getElem?_eq_some_iff.mp h).1
    rcases h with h | h <;> interval_cases n <;> simp at h <;> subst h <;> decide

theorem hexDigit_lt {c : Char} {n : Nat} (h : HexDigit c n) : n < 16 := by
  rcases h with h | h <;> exact (List.getElem?_eq_some_iff.mp h).1

theorem hex4_iff (a b c d : Char) (n : Nat) : hex4 a b c d = some n ↔ Hex4 [a, b, c, d] n := by
  simp only [hex4, Option.bind_eq_bind, Option.bind_eq_some_iff, hexVal_iff, Option.some.injEq, Hex4, List.cons.injEq, and_true]
  constructor
  · rintro ⟨x, hx, y, hy, z, hz, w, hw, e⟩
    exact ⟨a, b, c, d, x, y, z, w, ⟨rfl, rfl, rfl, rfl⟩, hx, hy, hz, hw, e.symm⟩
  · rintro ⟨a', b', c', d', x, y, z, w, ⟨rfl, rfl, rfl, rfl⟩, hx, hy, hz, hw, e⟩
    exact ⟨x, hx, y, hy, z, hz, w, hw, e.symm⟩

theorem hex4_lt {s : Str} {n : Nat} (h : Hex4 s n) : n < 0x10000 := by
  obtain ⟨a, b, c, d, x, y, z, w, -, hx, hy, hz, hw, e⟩ := h
  have := hexDigit_lt hx; have := hexDigit_lt hy; have := hexDigit_lt hz; have := hexDigit_lt hw
  omega

theorem appendRune_charBytes (c : Char) : appendRune c.toNat = charBytes c := by
  have hr := Wire.char_range c
  unfold appendRune charBytes String.utf8EncodeChar
  have e : c.toNat = c.val.toNat := rfl
  rw [e]
  generalize c.val.toNat = v at *
  have hb : ∀ n : Nat, n < 256 → Char.ofNat (UInt8.ofNat n).toNat = Char.ofNat n := by
    intro n hn
    rw [UInt8.toNat_ofNat', Nat.mod_eq_of_lt (by omega)]
  dsimp only
  by_cases h1 : v < 0x80
  · rw [if_pos h1, if_pos (by omega : v ≤ 127)]
    simp only [List.map_cons, List.map_nil, hb v (by omega)]
  · rw [if_neg h1, if_neg (by omega : ¬ v ≤ 127)]
    by_cases h2 : v < 0x800
    · rw [if_pos h2, if_pos (by omega : v ≤ 2047)]
      simp only [List.map_cons, List.map_nil, hb (v / 64 % 32 + 192) (by omega), hb (v % 64 + 128) (by omega)]
      rw [Nat.mod_eq_of_lt (by omega : v / 64 < 32), Nat.add_comm 0xC0, Nat.add_comm 0x80]
    · rw [if_neg h2, if_neg (by omega : ¬ v ≤ 2047)]
      by_cases h3 : v < 0x10000
      · rw [if_pos h3, if_pos (by omega : v ≤ 65535)]
        simp only [List.map_cons, List.map_nil, hb (v / 4096 % 16 + 224) (by omega), hb (v / 64 % 64 + 128) (by omega),
          hb (v % 64 + 128) (by omega)]
        rw [Nat.mod_eq_of_lt (by omega : v / 4096 < 16), Nat.add_comm 0xE0, Nat.add_comm 0x80 (v / 64 % 64), Nat.add_comm 0x80 (v % 64)]
      · rw [if_neg h3, if_neg (by omega : ¬ v ≤ 65535)]
        simp only [List.map_cons, List.map_nil, hb (v / 262144 % 8 + 240) (by omega), hb (v / 4096 % 64 + 128) (by omega),
          hb (v / 64 % 64 + 128) (by omega), hb (v % 64 + 128) (by omega)]
        rw [Nat.mod_eq_of_lt (by omega : v / 262144 < 8), Nat.add_comm 0xF0, Nat.add_comm 0x80 (v / 4096 % 64),
          Nat.add_comm 0x80 (v / 64 % 64), Nat.add_comm 0x80 (v % 64)]

theorem unescape_iff (e c : Char) : unescape e = some c ↔ ∃ n, (e, n) ∈ shortEscapes ∧ c = Char.ofNat n := by
  unfold unescape shortEscapes
  constructor
  · intro h
    split at h
    · rename_i h'
      cases h
      rcases h' with rfl | rfl | rfl
      · exact ⟨0x22, by simp, rfl⟩
      · exact ⟨0x5C, by simp, rfl⟩
      · exact ⟨0x2F, by simp, rfl⟩
    · repeat (split at h; · rename_i h'; subst h'; cases h; first
        | exact ⟨8, by simp, rfl⟩ | exact ⟨12, by simp, rfl⟩ | exact ⟨10, by simp, rfl⟩ | exact ⟨13, by simp, rfl⟩ | exact ⟨9, by simp, rfl⟩)
      cases h
  · rintro ⟨n, h, rfl⟩
    simp only [List.mem_cons, Prod.mk.injEq, List.not_mem_nil, or_false] at h
    rcases h with ⟨rfl, rfl⟩ | ⟨rfl, rfl⟩ | ⟨rfl, rfl⟩ | ⟨rfl, rfl⟩ | ⟨rfl, rfl⟩ | ⟨rfl, rfl⟩ | ⟨rfl, rfl⟩ | ⟨rfl, rfl⟩ <;> decide

theorem char_of_range {n : Nat} (h : n < 0xD800 ∨ (0xDFFF < n ∧ n < 0x110000)) : ∃ c : Char, c.toNat = n :=
  ⟨Char.ofNat n, by
    have hv : n.isValidChar := h
    simp only [Char.ofNat, hv, dif_pos, Char.toNat, Char.ofNatAux]
    rfl⟩

theorem unicode_iff {h : Str} {n : Nat} (hn : Hex4 h n) (r s r' : Str) : unicode n r = some (s, r') ↔
    (∃ c : Char, c.toNat = n ∧ s = charBytes c ∧ r' = r) ∨
    ∃ l m, ∃ c : Char, r = '\\' :: 'u' :: (l ++ r') ∧ Hex4 l m ∧ 0xD800 ≤ n ∧ n < 0xDC00 ∧ 0xDC00 ≤ m ∧ m < 0xE000 ∧
      c.toNat = 0x10000 + (n - 0xD800) * 0x400 + (m - 0xDC00) ∧ s = charBytes c := by
  have hlt := hex4_lt hn
  unfold unicode
  by_cases h1 : n < 0xD800 ∨ 0xE000 ≤ n
  · rw [if_pos h1]
    obtain ⟨c, hc⟩ := char_of_range (n := n) (by omega)
    constructor
    · intro e
      simp only [Option.some.injEq, Prod.mk.injEq] at e
      exact .inl ⟨c, hc, by rw [← e.1, ← hc, appendRune_charBytes], e.2.symm⟩
    · rintro (⟨c', hc', rfl, rfl⟩ | ⟨l, m, c', -, -, h2, h3, -⟩)
      · rw [← hc', appendRune_charBytes]
      · omega
  · rw [if_neg h1]
    have hnc : ¬ ∃ c : Char, c.toNat = n := by
      rintro ⟨c, hc⟩
      have : c.val.toNat = n := hc
      have := Wire.char_range c
      omega
    by_cases h2 : 0xDC00 ≤ n
    · rw [if_pos h2]
      constructor
      · intro e; cases e
      · rintro (⟨c, hc, -⟩ | ⟨l, m, c', -, -, -, h3, -⟩)
        · exact absurd ⟨c, hc⟩ hnc
        · omega
    · rw [if_neg h2]
      constructor
      · intro e
        split at e
        · rename_i a b c d r0
          split at e
          · rename_i m hm
            split at e
            · rename_i hm'
              simp only [Option.some.injEq, Prod.mk.injEq] at e
              obtain ⟨ch, hch⟩ := char_of_range (n := 0x10000 + (n - 0xD800) * 1024 + (m - 0xDC00)) (by omega)
              refine .inr ⟨[a, b, c, d], m, ch, by rw [← e.2]; rfl, (hex4_iff ..).mp hm, by omega, by omega, hm'.1, hm'.2, hch, ?_⟩
              rw [← e.1, ← hch, appendRune_charBytes]
            · cases e
          · cases e
        · cases e
      · rintro (⟨c, hc, -⟩ | ⟨l, m, ch, rfl, hl, -, -, h5, h6, hch, rfl⟩)
        · exact absurd ⟨c, hc⟩ hnc
        · have hl' := hl
          obtain ⟨a, b, c, d, x, y, z, w, rfl, -⟩ := hl'
          simp only [List.cons_append, List.nil_append, (hex4_iff ..).mpr hl]
          rw [if_pos ⟨h5, h6⟩, ← appendRune_charBytes, hch]

theorem readStr_cons (fuel : Nat) (c : Char) (r : Str) : readStr (fuel + 1) (c :: r) =
    if c = '"' then some ([], r)
      else if c = '\\' then
        match r with
        | [] => none
        | e :: r =>
          if e = 'u' then
            match r with
            | a :: b :: c :: d :: r =>
              ((hex4 a b c d).bind (unicode · r)).bind fun p => (readStr fuel p.2).map fun q => (p.1 ++ q.1, q.2)
            | _ => none
          else (unescape e).bind fun x => (readStr fuel r).map fun q => (x :: q.1, q.2)
      else if c.toNat < 0x20 then none
      else (readStr fuel r).map fun q => (c :: q.1, q.2) := by
  rw [readStr.eq_def]; rfl

theorem readStr_of {t s : Str} (h : StrText t s) : ∀ (fuel : Nat) (rest : Str), t.length < fuel →
    readStr fuel (t ++ '"' :: rest) = some (s, rest) := by
  induction h with
  | nil =>
    intro fuel rest hf
    obtain ⟨f, rfl⟩ : ∃ f, fuel = f + 1 := ⟨fuel - 1, by simp at hf; omega⟩
    simp [readStr]
  | @plain c t s h1 h2 h3 h4 ih =>
    intro fuel rest hf
    obtain ⟨f, rfl⟩ : ∃ f, fuel = f + 1 := ⟨fuel - 1, by simp at hf; omega⟩
    have : ¬ c.toNat < 0x20 := by omega
    rw [List.cons_append, readStr_cons, if_neg h1, if_neg h2, if_neg this, ih f rest (by simp at hf; omega)]
    rfl
  | @short e n t s h1 h2 ih =>
    intro fuel rest hf
    obtain ⟨f, rfl⟩ : ∃ f, fuel = f + 1 := ⟨fuel - 1, by simp at hf; omega⟩
    have hu := (unescape_iff e (Char.ofNat n)).mpr ⟨n, h1, rfl⟩
    have he : e ≠ 'u' := by rintro rfl; exact absurd hu (by simp [unescape])
    rw [List.cons_append, List.cons_append, readStr_cons, if_neg (by decide), if_pos rfl]
    simp only [he, if_false, hu, Option.bind_some]
    rw [ih f rest (by simp at hf; omega)]
    rfl
  | @unicode h t s c h1 h2 ih =>
    intro fuel rest hf
    obtain ⟨f, rfl⟩ : ∃ f, fuel = f + 1 := ⟨fuel - 1, by simp at hf; omega⟩
    have h1' := h1
    obtain ⟨a, b, c', d, x, y, z, w, rfl, -⟩ := h1'
    simp only [List.cons_append, List.nil_append] at *
    rw [readStr_cons, if_neg (by decide), if_pos rfl]
    simp only [if_true, (hex4_iff ..).mpr h1, Option.bind_some]
    rw [(unicode_iff h1 _ _ _).mpr (.inl ⟨c, rfl, rfl, rfl⟩), Option.bind_some]
    simp only
    rw [ih f rest (by simp at hf; omega)]
    rfl
  | @pair h l t s m n c h1 h2 h3 h4 h5 h6 h7 h8 ih =>
    intro fuel rest hf
    obtain ⟨f, rfl⟩ : ∃ f, fuel = f + 1 := ⟨fuel - 1, by simp at hf; omega⟩
    have h1' := h1
    obtain ⟨a, b, c', d, x, y, z, w, rfl, -⟩ := h1'
    simp only [List.cons_append, List.nil_append, List.append_assoc] at *
    rw [readStr_cons, if_neg (by decide), if_pos rfl]
    simp only [if_true, (hex4_iff ..).mpr h1, Option.bind_some]
    rw [(unicode_iff h1 _ _ _).mpr (.inr ⟨l, n, c, rfl, h2, h3, h4, h5, h6, h7, rfl⟩), Option.bind_some]
    simp only
    rw [ih f rest (by simp at hf; omega)]
    rfl

theorem readStr_sound : ∀ (fuel : Nat) (x s r : Str), readStr fuel x = some (s, r) → ∃ t, x = t ++ '"' :: r ∧ StrText t s
  | 0, _, _, _, h => by simp [readStr] at h
  | fuel + 1, x, s, r, h => by
    cases x with
    | nil => simp [readStr] at h
    | cons c x =>
      rw [readStr_cons] at h
      by_cases h1 : c = '"'
      · rw [if_pos h1] at h
        simp only [Option.some.injEq, Prod.mk.injEq] at h
        obtain ⟨rfl, rfl⟩ := h
        exact ⟨[], by rw [h1]; rfl, .nil⟩
      · rw [if_neg h1] at h
        by_cases h2 : c = '\\'
        · rw [if_pos h2] at h
          subst h2
          cases x with
          | nil => simp at h
          | cons e x =>
            by_cases he : e = 'u'
            · subst he
              simp only [if_true] at h
              split at h
              · rename_i a b c d x'
                simp only [Option.bind_eq_some_iff, Option.map_eq_some_iff] at h
                obtain ⟨p, ⟨n, hn, hp⟩, q, hq, e⟩ := h
                have hn' := (hex4_iff ..).mp hn
                obtain ⟨p1, p2⟩ := p
                obtain ⟨q1, q2⟩ := q
                simp only [Prod.mk.injEq] at e hq
                obtain ⟨rfl, rfl⟩ := e
                obtain ⟨t, rfl, ht⟩ := readStr_sound fuel _ _ _ hq
                rcases (unicode_iff hn' _ _ _).mp hp with ⟨ch, rfl, rfl, hx⟩ | ⟨l, m, ch, hx, hl, h3, h4, h5, h6, h7, rfl⟩
                · exact ⟨_, by rw [← hx]; rfl, .unicode hn' ht⟩
                · refine ⟨'\\' :: 'u' :: ([a, b, c, d] ++ '\\' :: 'u' :: (l ++ t)), by rw [hx]; simp, .pair hn' hl h3 h4 h5 h6 h7 ht⟩
              · cases h
            · simp only [he, if_false, Option.bind_eq_some_iff, Option.map_eq_some_iff] at h
              obtain ⟨y, hy, q, hq, e'⟩ := h
              obtain ⟨q1, q2⟩ := q
              simp only [Prod.mk.injEq] at e'
              obtain ⟨rfl, rfl⟩ := e'
              obtain ⟨t, rfl, ht⟩ := readStr_sound fuel _ _ _ hq
              obtain ⟨n, hn, rfl⟩ := (unescape_iff ..).mp hy
              exact ⟨_, rfl, .short hn ht⟩
        · rw [if_neg h2] at h
          split at h
          · cases h
          · rename_i h3
            simp only [Option.map_eq_some_iff] at h
            obtain ⟨⟨q1, q2⟩, hq, e'⟩ := h
            simp only [Prod.mk.injEq] at e'
            obtain ⟨rfl, rfl⟩ := e'
            obtain ⟨t, rfl, ht⟩ := readStr_sound fuel _ _ _ hq
            exact ⟨_, rfl, .plain h1 h2 (by omega) ht⟩

/-! ## Numbers -/

theorem decimals_all (s : Str) : Decimals s ↔ s ≠ [] ∧ s.all (·.isDigit) = true := by
  have : ∀ c : Char, c.isDigit = true ↔ '0' ≤ c ∧ c ≤ '9' := fun c => by simp [Char.isDigit, Char.le_def]
  simp only [Decimals, List.all_eq_true, this]

theorem takeWhile_append_of {p : Char → Bool} {a b : Str} (ha : ∀ c ∈ a, p c = true) (hb : ∀ c, b.head? = some c → p c = false) :
    (a ++ b).takeWhile p = a ∧ (a ++ b).dropWhile p = b := by
  induction a with
  | nil =>
    cases b with
    | nil => simp
    | cons c b => simp [hb c rfl]
  | cons c a ih =>
    have := ih fun x hx => ha x (List.mem_cons_of_mem _ hx)
    simp [ha c (by simp), this]

theorem readExp_iff (t : Str) (e : Int) : readExp t = some e ↔ ExpText e t := by
  cases t with
  | nil => simp [readExp, ExpText, eq_comm]
  | cons c s =>
    unfold readExp
    dsimp only
    by_cases hc : c = 'e' ∨ c = 'E'
    · rw [if_pos hc]
      constructor
      · intro h
        right
        cases s with
        | nil => simp [takeSign] at h
        | cons d r =>
          rw [takeSign] at h
          by_cases h1 : d = '-'
          · subst h1
            simp only [if_true] at h
            split at h
            · rename_i hr
              simp only [Option.some.injEq] at h
              exact ⟨c, ['-'], r, rfl, hc, (decimals_all _).mpr hr, .inr ⟨rfl, by rw [Serve.digitsValue_eq]; exact h.symm⟩⟩
            · cases h
          · rw [if_neg h1] at h
            by_cases h2 : d = '+'
            · subst h2
              simp only [if_true] at h
              split at h
              · rename_i hr
                simp only [Bool.false_eq_true, if_false, Option.some.injEq] at h
                exact ⟨c, ['+'], r, rfl, hc, (decimals_all _).mpr hr, .inl ⟨.inr rfl, by rw [Serve.digitsValue_eq]; exact h.symm⟩⟩
              · cases h
            · rw [if_neg h2] at h
              split at h
              · rename_i hr
                simp only [Bool.false_eq_true, if_false, Option.some.injEq] at h
                exact ⟨c, [], d :: r, rfl, hc, (decimals_all _).mpr hr, .inl ⟨.inl rfl, by rw [Serve.digitsValue_eq]; exact h.symm⟩⟩
              · cases h
      · rintro (⟨h, -⟩ | ⟨c', sign, ds, h, -, hd, hs⟩)
        · cases h
        · simp only [List.cons.injEq] at h
          obtain ⟨rfl, rfl⟩ := h
          have hd' := (decimals_all _).mp hd
          rcases hs with ⟨rfl | rfl, rfl⟩ | ⟨rfl, rfl⟩
          · cases ds with
            | nil => exact absurd rfl hd.1
            | cons d r =>
              have hdig : d.isDigit = true := by have := hd'.2; simp at this; exact this.1
              have h1 : d ≠ '-' := by rintro rfl; exact absurd hdig (by decide)
              have h2 : d ≠ '+' := by rintro rfl; exact absurd hdig (by decide)
              simp only [List.nil_append, takeSign, h1, h2, if_false]
              rw [if_pos hd', Serve.digitsValue_eq]; rfl
          · simp only [List.cons_append, List.nil_append, takeSign, show ('+' : Char) ≠ '-' by decide, if_false, if_true]
            rw [if_pos hd', Serve.digitsValue_eq]; rfl
          · simp only [List.cons_append, List.nil_append, takeSign, if_true]
            rw [if_pos hd', Serve.digitsValue_eq]; rfl
    · rw [if_neg hc]
      constructor
      · intro h; cases h
      · rintro (⟨h, -⟩ | ⟨c', sign, ds, h, hc', -⟩)
        · cases h
        · simp only [List.cons.injEq] at h
          exact absurd (h.1 ▸ hc') hc

theorem expText_head {e : Int} {t : Str} (h : ExpText e t) : ∀ c, t.head? = some c → c = 'e' ∨ c = 'E' := by
  rcases h with ⟨rfl, -⟩ | ⟨c, sign, ds, rfl, hc, -⟩
  · simp
  · simp only [List.head?_cons, Option.some.injEq]
    rintro _ rfl; exact hc

theorem numParts_of {neg : Bool} {i f : Str} {e : Int} {t : Str} (h : NumText neg i f e t) : numParts t = some ⟨neg, i, f, e⟩ := by
  obtain ⟨fp, ep, rfl, hi, hz, hf, he⟩ := h
  have hi' := (decimals_all _).mp hi
  have hid : ∀ c ∈ i, c.isDigit = true := List.all_eq_true.mp hi'.2
  have hh := expText_head he
  have hrest : ∀ c, (fp ++ ep).head? = some c → c.isDigit = false := by
    intro c hc
    rcases hf with ⟨rfl, -⟩ | ⟨rfl, -⟩
    · rcases hh c hc with rfl | rfl <;> rfl
    · simp only [List.cons_append, List.head?_cons, Option.some.injEq] at hc
      subst hc; rfl
  obtain ⟨ht, hd⟩ := takeWhile_append_of hid hrest
  have hneg : takeMinus ((if neg then ['-'] else []) ++ (i ++ (fp ++ ep))) = (neg, i ++ (fp ++ ep)) := by
    cases neg with
    | true => simp [takeMinus]
    | false =>
      cases i with
      | nil => exact absurd rfl hi.1
      | cons c r =>
        have : c ≠ '-' := by rintro rfl; exact absurd (hid '-' (by simp)) (by decide)
        simp [takeMinus, this]
  unfold numParts
  rw [hneg]
  simp only [ht, hd]
  have hlead : ¬ (i = [] ∨ (1 < i.length ∧ i.head? = some '0')) := by
    rintro (h | ⟨h1, h2⟩)
    · exact hi.1 h
    · rcases hz with rfl | hz
      · simp at h1
      · exact hz h2
  rw [if_neg hlead]
  rcases hf with ⟨rfl, rfl⟩ | ⟨rfl, hf⟩
  · simp only [List.nil_append]
    cases ep with
    | nil =>
      rcases he with ⟨-, rfl⟩ | ⟨c, _, _, h, -⟩
      · rfl
      · cases h
    | cons c ep =>
      have hc : c ≠ '.' := by rcases hh c rfl with rfl | rfl <;> decide
      simp only [hc, if_false, (readExp_iff _ _).mpr he, Option.map_some]
  · have hf' := (decimals_all _).mp hf
    obtain ⟨ht', hd'⟩ := takeWhile_append_of (List.all_eq_true.mp hf'.2) (b := ep) fun c hc => by
      rcases hh c hc with rfl | rfl <;> rfl
    simp only [List.cons_append, if_true, ht', hd', hf.1, if_false, (readExp_iff _ _).mpr he, Option.map_some]

theorem all_takeWhile (p : Char → Bool) (s : Str) : (s.takeWhile p).all p = true := by
  rw [List.all_eq_true]; intro c hc; induction s with
  | nil => simp at hc
  | cons d s ih =>
    rw [List.takeWhile_cons] at hc
    split at hc
    · rcases List.mem_cons.mp hc with rfl | h
      · assumption
      · exact ih h
    · simp at hc

theorem numParts_sound {t : Str} {p : NumParts} (h : numParts t = some p) : NumText p.neg p.int p.frac p.exp t := by
  unfold numParts at h
  have key : ∀ (neg : Bool) (u : Str), t = (if neg then ['-'] else []) ++ u →
      (if (u.takeWhile (·.isDigit)) = [] ∨ (1 < (u.takeWhile (·.isDigit)).length ∧ (u.takeWhile (·.isDigit)).head? = some '0') then none
        else match u.dropWhile (·.isDigit) with
          | [] => some ⟨neg, u.takeWhile (·.isDigit), [], 0⟩
          | c :: r' =>
            if c = '.' then
              if r'.takeWhile (·.isDigit) = [] then none
              else (readExp (r'.dropWhile (·.isDigit))).map fun e => (⟨neg, u.takeWhile (·.isDigit), r'.takeWhile (·.isDigit), e⟩ : NumParts)
            else (readExp (u.dropWhile (·.isDigit))).map fun e => ⟨neg, u.takeWhile (·.isDigit), [], e⟩) = some p →
      NumText p.neg p.int p.frac p.exp t := by
    intro neg u hu h
    split at h
    · cases h
    · rename_i hlead
      rw [not_or] at hlead
      have hdec : Decimals (u.takeWhile (·.isDigit)) := (decimals_all _).mpr ⟨hlead.1, all_takeWhile _ _⟩
      have hz : u.takeWhile (·.isDigit) = ['0'] ∨ (u.takeWhile (·.isDigit)).head? ≠ some '0' := by
        by_cases h0 : (u.takeWhile (·.isDigit)).head? = some '0'
        · left
          cases hx : u.takeWhile (·.isDigit) with
          | nil => rw [hx] at h0; cases h0
          | cons c r =>
            rw [hx] at h0 hlead
            simp only [List.head?_cons, Option.some.injEq] at h0
            subst h0
            cases r with
            | nil => rfl
            | cons d r => exact absurd ⟨by simp, rfl⟩ hlead.2
        · exact .inr h0
      have hsplit : u = u.takeWhile (·.isDigit) ++ u.dropWhile (·.isDigit) := (List.takeWhile_append_dropWhile).symm
      split at h
      · rename_i hr
        cases h
        exact ⟨[], [], by rw [hu]; simp only [List.append_nil]; congr 1; rw [hr, List.append_nil] at hsplit; exact hsplit,
          hdec, hz, .inl ⟨rfl, rfl⟩, .inl ⟨rfl, rfl⟩⟩
      · rename_i c r' hr
        split at h
        · rename_i hc
          subst hc
          split at h
          · cases h
          · rename_i hf
            simp only [Option.map_eq_some_iff] at h
            obtain ⟨e, he, rfl⟩ := h
            refine ⟨'.' :: r'.takeWhile (·.isDigit), r'.dropWhile (·.isDigit), ?_, hdec, hz,
              .inr ⟨rfl, (decimals_all _).mpr ⟨hf, all_takeWhile _ _⟩⟩, (readExp_iff _ _).mp he⟩
            rw [hu, List.cons_append, List.takeWhile_append_dropWhile, ← hr, ← hsplit]
        · simp only [Option.map_eq_some_iff] at h
          obtain ⟨e, he, rfl⟩ := h
          exact ⟨[], _, by rw [hu, List.nil_append, ← hsplit], hdec, hz, .inl ⟨rfl, rfl⟩, (readExp_iff _ _).mp he⟩
  cases t with
  | nil => simp [takeMinus] at h
  | cons c r =>
    by_cases hc : c = '-'
    · subst hc
      simp only [takeMinus, if_true] at h
      exact key true r rfl h
    · simp only [takeMinus, hc, if_false] at h
      exact key false (c :: r) rfl h

theorem numberOk_iff (t : Str) : numberOk t = true ↔ IsNumber t := by
  unfold numberOk IsNumber
  rw [Option.isSome_iff_exists]
  constructor
  · rintro ⟨p, hp⟩; exact ⟨_, _, _, _, numParts_sound hp⟩
  · rintro ⟨neg, i, f, e, h⟩; exact ⟨_, numParts_of h⟩

theorem decimals_notDelim {s : Str} (h : Decimals s) : ∀ c ∈ s, notDelim c = true := by
  intro c hc
  have := List.all_eq_true.mp ((decimals_all _).mp h).2 c hc
  simp [notDelim, this]

theorem isNumber_notDelim {t : Str} (h : IsNumber t) : ∀ c ∈ t, notDelim c = true := by
  obtain ⟨neg, i, f, e, fp, ep, rfl, hi, -, hf, he⟩ := h
  intro c hc
  simp only [List.mem_append] at hc
  rcases hc with hc | hc | hc | hc
  · cases neg <;> simp at hc; subst hc; decide
  · exact decimals_notDelim hi c hc
  · rcases hf with ⟨rfl, -⟩ | ⟨rfl, hf⟩
    · cases hc
    · rcases List.mem_cons.mp hc with rfl | hc
      · decide
      · exact decimals_notDelim hf c hc
  · rcases he with ⟨rfl, -⟩ | ⟨x, sign, ds, rfl, hx, hd, hs⟩
    · cases hc
    · simp only [List.mem_cons, List.mem_append] at hc
      rcases hc with rfl | hc | hc
      · rcases hx with rfl | rfl <;> decide
      · rcases hs with ⟨rfl | rfl, -⟩ | ⟨rfl, -⟩ <;> simp at hc <;> subst hc <;> decide
      · exact decimals_notDelim hd c hc

theorem isNumber_head {t : Str} (h : IsNumber t) : ∃ c r, t = c :: r ∧ (c = '-' ∨ c.isDigit = true) := by
  obtain ⟨neg, i, f, e, fp, ep, rfl, hi, -⟩ := h
  cases neg with
  | true => exact ⟨'-', _, rfl, .inl rfl⟩
  | false =>
    cases i with
    | nil => exact absurd rfl hi.1
    | cons c r =>
      refine ⟨c, _, rfl, .inr ?_⟩
      exact List.all_eq_true.mp ((decimals_all _).mp hi).2 c (by simp)

/-! ## Values -/

def Delim (rest : Str) : Prop := ∀ c, rest.head? = some c → notDelim c = false

theorem readWord_of {w rest : Str} (hw : ∀ c ∈ w, notDelim c = true) (hr : Delim rest) :
    readWord (w ++ rest) = (if w = "null".toList then some (.null, rest)
      else if w = "true".toList then some (.bool true, rest)
      else if w = "false".toList then some (.bool false, rest)
      else if numberOk w then some (.num w, rest)
      else none) := by
  obtain ⟨h1, h2⟩ := takeWhile_append_of hw hr
  unfold readWord
  simp only [h1, h2]

theorem isWs_iff (c : Char) : isWs c = true ↔ c ∈ [' ', '\t', '\n', '\r'] := by
  simp [isWs, or_assoc]

theorem skipWs_append {w s : Str} (h : Ws w) : skipWs (w ++ s) = skipWs s := by
  induction w with
  | nil => rfl
  | cons c w ih =>
    rw [List.cons_append, skipWs, if_pos ((isWs_iff c).mpr (h c (by simp)))]
    exact ih fun x hx => h x (List.mem_cons_of_mem _ hx)

theorem skipWs_sound (s : Str) : ∃ w, s = w ++ skipWs s ∧ Ws w := by
  induction s with
  | nil => exact ⟨[], rfl, by simp [Ws]⟩
  | cons c s ih =>
    rw [skipWs]
    split
    · rename_i hc
      obtain ⟨w, hw, h⟩ := ih
      refine ⟨c :: w, by rw [List.cons_append, ← hw], ?_⟩
      intro x hx
      rcases List.mem_cons.mp hx with rfl | hx
      · exact (isWs_iff x).mp hc
      · exact h x hx
    · exact ⟨[], rfl, by simp [Ws]⟩

theorem skipWs_head {s : Str} {c : Char} {r : Str} (h : skipWs s = c :: r) : isWs c = false := by
  induction s with
  | nil => cases h
  | cons d s ih =>
    rw [skipWs] at h
    split at h
    · exact ih h
    · rename_i hd
      simp only [List.cons.injEq] at h
      rw [← h.1]; simpa using hd

theorem jtext_head {j : Json} {t : Str} (h : JText j t) : ∃ c r, t = c :: r ∧ isWs c = false ∧ c ≠ ']' ∧ c ≠ '}' := by
  cases h with
  | null => exact ⟨_, _, rfl, by decide, by decide, by decide⟩
  | true => exact ⟨_, _, rfl, by decide, by decide, by decide⟩
  | false => exact ⟨_, _, rfl, by decide, by decide, by decide⟩
  | num hn =>
    obtain ⟨c, r, rfl, hc⟩ := isNumber_head hn
    refine ⟨c, r, rfl, ?_⟩
    rcases hc with rfl | hc
    · decide
    · refine ⟨?_, ?_, ?_⟩
      · cases hw : isWs c with
        | false => rfl
        | true =>
          have := (isWs_iff c).mp hw
          simp only [List.mem_cons, List.not_mem_nil, or_false] at this
          rcases this with rfl | rfl | rfl | rfl <;> exact absurd hc (by decide)
      · rintro rfl; exact absurd hc (by decide)
      · rintro rfl; exact absurd hc (by decide)
  | str _ => exact ⟨_, _, rfl, by decide, by decide, by decide⟩
  | noElems _ => exact ⟨_, _, rfl, by decide, by decide, by decide⟩
  | arr _ => exact ⟨_, _, rfl, by decide, by decide, by decide⟩
  | noMembers _ => exact ⟨_, _, rfl, by decide, by decide, by decide⟩
  | obj _ => exact ⟨_, _, rfl, by decide, by decide, by decide⟩

theorem skipWs_of_head {c : Char} (h : isWs c = false) (r : Str) : skipWs (c :: r) = c :: r := by
  rw [skipWs, if_neg (by simp [h])]

theorem delim_ws {w : Str} (hw : Ws w) {c : Char} (hc : notDelim c = false) (r : Str) : Delim (w ++ c :: r) := by
  cases w with
  | nil => intro x hx; simp at hx; rw [← hx]; exact hc
  | cons d w =>
    intro x hx
    simp at hx
    have := hw d (by simp)
    simp only [List.mem_cons, List.not_mem_nil, or_false] at this
    rw [← hx]
    rcases this with rfl | rfl | rfl | rfl <;> decide

theorem readValue_word {t : Str} {rest : Str} {j : Json} (fuel : Nat) (w : Str) (hw : Ws w) (hf : 0 < fuel)
    (ht : ∃ c r, t = c :: r ∧ isWs c = false ∧ c ≠ '"' ∧ c ≠ '[' ∧ c ≠ '{') (h : readWord (t ++ rest) = some (j, rest)) :
    readValue fuel (w ++ (t ++ rest)) = some (j, rest) := by
  obtain ⟨f, rfl⟩ : ∃ f, fuel = f + 1 := ⟨fuel - 1, by omega⟩
  obtain ⟨c, r, rfl, h0, h1, h2, h3⟩ := ht
  rw [readValue, skipWs_append hw, List.cons_append, skipWs_of_head h0]
  simp only [h1, h2, h3, if_false]
  exact h

theorem readValue_of {j : Json} {t : Str} (h : JText j t) : ∀ (fuel : Nat) (w rest : Str), Ws w → t.length ≤ fuel → ((∀ l, j ≠ .obj l) → Delim rest) →
    readValue fuel (w ++ (t ++ rest)) = some (j, rest) := by
  refine JText.rec
    (motive_1 := fun j t _ => ∀ (fuel : Nat) (w rest : Str), Ws w → t.length ≤ fuel → ((∀ l, j ≠ .obj l) → Delim rest) →
      readValue fuel (w ++ (t ++ rest)) = some (j, rest))
    (motive_2 := fun l t _ => ∀ (fuel : Nat) (rest : Str), t.length + 1 ≤ fuel →
      readElems fuel (t ++ ']' :: rest) = some (l, rest) ∧ ∃ c r, skipWs (t ++ ']' :: rest) = c :: r ∧ c ≠ ']')
    (motive_3 := fun l t _ => ∀ (fuel : Nat) (rest : Str), t.length + 1 ≤ fuel →
      readMembers fuel (t ++ '}' :: rest) = some (l, rest) ∧ ∃ c r, skipWs (t ++ '}' :: rest) = c :: r ∧ c ≠ '}')
    ?_ ?_ ?_ ?_ ?_ ?_ ?_ ?_ ?_ ?_ ?_ ?_ ?_ h
  · intro fuel w rest hw hf hr
    refine readValue_word fuel w hw (by simp at hf; omega) ⟨_, _, rfl, by decide, by decide, by decide, by decide⟩ ?_
    rw [readWord_of (by decide) (hr (by simp))]; rfl
  · intro fuel w rest hw hf hr
    refine readValue_word fuel w hw (by simp at hf; omega) ⟨_, _, rfl, by decide, by decide, by decide, by decide⟩ ?_
    rw [readWord_of (by decide) (hr (by simp))]; rfl
  · intro fuel w rest hw hf hr
    refine readValue_word fuel w hw (by simp at hf; omega) ⟨_, _, rfl, by decide, by decide, by decide, by decide⟩ ?_
    rw [readWord_of (by decide) (hr (by simp))]; rfl
  · intro t hn fuel w rest hw hf hr
    obtain ⟨c, r, e, hc⟩ := isNumber_head hn
    obtain ⟨c', r', e', hws, -, -⟩ := jtext_head (.num hn)
    have hcc : c' = c := by rw [e] at e'; simp only [List.cons.injEq] at e'; exact e'.1.symm
    rw [hcc] at hws
    have hne : ∀ d, ¬ (d = '-' ∨ d.isDigit = true) → c ≠ d := by rintro d hd rfl; exact hd hc
    refine readValue_word fuel w hw (by rw [e] at hf; simp at hf; omega)
      ⟨c, r, e, hws, hne _ (by decide), hne _ (by decide), hne _ (by decide)⟩ ?_
    have hwd : ∀ d (s : Str), ¬ (d = '-' ∨ d.isDigit = true) → t ≠ d :: s := by
      intro d s hd ht; rw [e] at ht; simp only [List.cons.injEq] at ht; exact hne d hd ht.1
    rw [readWord_of (isNumber_notDelim hn) (hr (by simp)), if_neg (show ¬ t = "null".toList from hwd 'n' "ull".toList (by decide)),
      if_neg (show ¬ t = "true".toList from hwd 't' "rue".toList (by decide)),
      if_neg (show ¬ t = "false".toList from hwd 'f' "alse".toList (by decide)), if_pos ((numberOk_iff t).mpr hn)]
  · intro t s hs fuel w rest hw hf hr
    obtain ⟨f, rfl⟩ : ∃ f, fuel = f + 1 := ⟨fuel - 1, by simp at hf; omega⟩
    rw [readValue, skipWs_append hw]
    simp only [List.cons_append, List.append_assoc, List.nil_append]
    rw [skipWs_of_head (by decide)]
    simp only [if_true]
    rw [readStr_of hs _ _ (by simp; omega)]
    rfl
  · intro v hv fuel w rest hw hf hr
    obtain ⟨f, rfl⟩ : ∃ f, fuel = f + 1 := ⟨fuel - 1, by simp at hf; omega⟩
    rw [readValue, skipWs_append hw]
    simp only [List.cons_append, List.append_assoc, List.nil_append]
    rw [skipWs_of_head (by decide)]
    simp only [show ('[' : Char) ≠ '"' by decide, if_false, if_true]
    rw [skipWs_append hv, skipWs_of_head (by decide)]
    rfl
  · intro l t ht ih fuel w rest hw hf hr
    obtain ⟨f, rfl⟩ : ∃ f, fuel = f + 1 := ⟨fuel - 1, by simp at hf; omega⟩
    rw [readValue, skipWs_append hw]
    simp only [List.cons_append, List.append_assoc, List.nil_append]
    rw [skipWs_of_head (by decide)]
    simp only [show ('[' : Char) ≠ '"' by decide, if_false, if_true]
    obtain ⟨h1, c, r, h2, h3⟩ := ih f rest (by simp at hf; omega)
    rw [h2]
    simp only [h3, if_false, h1, Option.map_some]
  · intro v hv fuel w rest hw hf hr
    obtain ⟨f, rfl⟩ : ∃ f, fuel = f + 1 := ⟨fuel - 1, by simp at hf; omega⟩
    rw [readValue, skipWs_append hw]
    simp only [List.cons_append, List.append_assoc, List.nil_append]
    rw [skipWs_of_head (by decide)]
    simp only [show ('{' : Char) ≠ '"' by decide, show ('{' : Char) ≠ '[' by decide, if_false, if_true]
    rw [skipWs_append hv, skipWs_of_head (by decide)]
    rfl
  · intro l t ht ih fuel w rest hw hf hr
    obtain ⟨f, rfl⟩ : ∃ f, fuel = f + 1 := ⟨fuel - 1, by simp at hf; omega⟩
    rw [readValue, skipWs_append hw]
    simp only [List.cons_append, List.append_assoc, List.nil_append]
    rw [skipWs_of_head (by decide)]
    simp only [show ('{' : Char) ≠ '"' by decide, show ('{' : Char) ≠ '[' by decide, if_false, if_true]
    obtain ⟨h1, c, r, h2, h3⟩ := ih f rest (by simp at hf; omega)
    rw [h2]
    simp only [h3, if_false, h1, Option.map_some]
  · intro j w t w' hw ht hw' ih fuel rest hf
    obtain ⟨f, rfl⟩ : ∃ f, fuel = f + 1 := ⟨fuel - 1, by simp at hf; omega⟩
    simp only [List.append_assoc]
    constructor
    · rw [readElems, ih f w (w' ++ ']' :: rest) hw (by simp at hf; omega) (fun _ => delim_ws hw' (by decide) _)]
      simp only
      rw [skipWs_append hw', skipWs_of_head (by decide)]
      rfl
    · obtain ⟨c, r, rfl, h1, h2, -⟩ := jtext_head ht
      rw [skipWs_append hw, List.cons_append, skipWs_of_head h1]
      exact ⟨_, _, rfl, h2⟩
  · intro j l w t w' r hw ht hw' hr ih ih' fuel rest hf
    obtain ⟨f, rfl⟩ : ∃ f, fuel = f + 1 := ⟨fuel - 1, by simp at hf; omega⟩
    simp only [List.append_assoc, List.cons_append]
    constructor
    · rw [readElems, ih f w (w' ++ ',' :: (r ++ ']' :: rest)) hw (by simp at hf; omega) (fun _ => delim_ws hw' (by decide) _)]
      simp only
      rw [skipWs_append hw', skipWs_of_head (by decide)]
      simp only [if_true]
      rw [(ih' f rest (by simp at hf; omega)).1]
      rfl
    · obtain ⟨c, r, rfl, h1, h2, -⟩ := jtext_head ht
      rw [skipWs_append hw, List.cons_append, skipWs_of_head h1]
      exact ⟨_, _, rfl, h2⟩
  · intro k j w kt w1 w2 t w' hw hk hw1 hw2 ht hw' ih fuel rest hf
    obtain ⟨f, rfl⟩ : ∃ f, fuel = f + 1 := ⟨fuel - 1, by simp at hf; omega⟩
    simp only [List.append_assoc, List.cons_append]
    constructor
    · rw [readMembers, skipWs_append hw, skipWs_of_head (by decide)]
      simp only [if_true]
      rw [readStr_of hk _ _ (by simp; omega)]
      simp only
      rw [skipWs_append hw1, skipWs_of_head (by decide)]
      simp only [if_true]
      rw [ih f w2 (w' ++ '}' :: rest) hw2 (by simp at hf; omega) (fun _ => delim_ws hw' (by decide) _)]
      simp only
      rw [skipWs_append hw', skipWs_of_head (by decide)]
      rfl
    · rw [skipWs_append hw, skipWs_of_head (by decide)]
      exact ⟨_, _, rfl, by decide⟩
  · intro k j l w kt w1 w2 t w' r hw hk hw1 hw2 ht hw' hr ih ih' fuel rest hf
    obtain ⟨f, rfl⟩ : ∃ f, fuel = f + 1 := ⟨fuel - 1, by simp at hf; omega⟩
    simp only [List.append_assoc, List.cons_append]
    constructor
    · rw [readMembers, skipWs_append hw, skipWs_of_head (by decide)]
      simp only [if_true]
      rw [readStr_of hk _ _ (by simp; omega)]
      simp only
      rw [skipWs_append hw1, skipWs_of_head (by decide)]
      simp only [if_true]
      rw [ih f w2 (w' ++ ',' :: (r ++ '}' :: rest)) hw2 (by simp at hf; omega) (fun _ => delim_ws hw' (by decide) _)]
      simp only
      rw [skipWs_append hw', skipWs_of_head (by decide)]
      simp only [if_true]
      rw [(ih' f rest (by simp at hf; omega)).1]
      rfl
    · rw [skipWs_append hw, skipWs_of_head (by decide)]
      exact ⟨_, _, rfl, by decide⟩

theorem readWord_sound {s : Str} {j : Json} {r : Str} (h : readWord s = some (j, r)) : ∃ t, s = t ++ r ∧ JText j t := by
  unfold readWord at h
  have hs : s = s.takeWhile notDelim ++ s.dropWhile notDelim := (List.takeWhile_append_dropWhile).symm
  simp only at h
  split at h
  · rename_i hw; cases h; exact ⟨_, hs, hw ▸ .null⟩
  · split at h
    · rename_i hw; cases h; exact ⟨_, hs, hw ▸ .true⟩
    · split at h
      · rename_i hw; cases h; exact ⟨_, hs, hw ▸ .false⟩
      · split at h
        · rename_i hw; cases h; exact ⟨_, hs, .num ((numberOk_iff _).mp hw)⟩
        · cases h

theorem read_sound : ∀ (fuel : Nat),
    (∀ s j r, readValue fuel s = some (j, r) → ∃ w t, s = w ++ (t ++ r) ∧ Ws w ∧ JText j t) ∧
    (∀ s l r, readElems fuel s = some (l, r) → ∃ t, s = t ++ ']' :: r ∧ JElems l t) ∧
    (∀ s l r, readMembers fuel s = some (l, r) → ∃ t, s = t ++ '}' :: r ∧ JMembers l t)
  | 0 => by simp [readValue, readElems, readMembers]
  | fuel + 1 => by
    obtain ⟨ihv, ihe, ihm⟩ := read_sound fuel
    refine ⟨?_, ?_, ?_⟩
    · intro s j r h
      rw [readValue] at h
      obtain ⟨w, hs, hw⟩ := skipWs_sound s
      split at h
      · cases h
      · rename_i c x hx
        rw [hx] at hs
        split at h
        · rename_i hc
          subst hc
          simp only [Option.map_eq_some_iff] at h
          obtain ⟨⟨a, b⟩, hq, e⟩ := h
          cases e
          obtain ⟨t, ht, h'⟩ := readStr_sound _ _ _ _ hq
          refine ⟨w, '"' :: (t ++ ['"']), ?_, hw, .str h'⟩
          rw [hs, ht]; simp
        · split at h
          · rename_i hc
            subst hc
            obtain ⟨w', hs', hw'⟩ := skipWs_sound x
            split at h
            · cases h
            · rename_i d y hy
              rw [hy] at hs'
              split at h
              · rename_i hd
                subst hd
                cases h
                refine ⟨w, '[' :: (w' ++ [']']), ?_, hw, .noElems hw'⟩
                rw [hs, hs']; simp
              · simp only [Option.map_eq_some_iff] at h
                obtain ⟨⟨a, b⟩, hq, e⟩ := h
                cases e
                obtain ⟨t, ht, h'⟩ := ihe _ _ _ hq
                refine ⟨w, '[' :: (t ++ [']']), ?_, hw, .arr h'⟩
                rw [hs, ht]; simp
          · split at h
            · rename_i hc
              subst hc
              obtain ⟨w', hs', hw'⟩ := skipWs_sound x
              split at h
              · cases h
              · rename_i d y hy
                rw [hy] at hs'
                split at h
                · rename_i hd
                  subst hd
                  cases h
                  refine ⟨w, '{' :: (w' ++ ['}']), ?_, hw, .noMembers hw'⟩
                  rw [hs, hs']; simp
                · simp only [Option.map_eq_some_iff] at h
                  obtain ⟨⟨a, b⟩, hq, e⟩ := h
                  cases e
                  obtain ⟨t, ht, h'⟩ := ihm _ _ _ hq
                  refine ⟨w, '{' :: (t ++ ['}']), ?_, hw, .obj h'⟩
                  rw [hs, ht]; simp
            · obtain ⟨t, ht, h'⟩ := readWord_sound h
              exact ⟨w, t, by rw [hs, ht], hw, h'⟩
    · intro s l r h
      rw [readElems] at h
      split at h
      · cases h
      · rename_i j x hx
        obtain ⟨w, t, rfl, hw, ht⟩ := ihv _ _ _ hx
        obtain ⟨w', hs', hw'⟩ := skipWs_sound x
        split at h
        · cases h
        · rename_i c y hy
          rw [hy] at hs'
          split at h
          · rename_i hc
            subst hc
            simp only [Option.map_eq_some_iff] at h
            obtain ⟨⟨a, b⟩, hq, e⟩ := h
            cases e
            obtain ⟨t', ht', h'⟩ := ihe _ _ _ hq
            refine ⟨_, ?_, .cons hw ht hw' h'⟩
            rw [hs', ht']; simp
          · split at h
            · rename_i hc
              subst hc
              cases h
              refine ⟨_, ?_, .one hw ht hw'⟩
              rw [hs']; simp
            · cases h
    · intro s l r h
      rw [readMembers] at h
      obtain ⟨w, hs, hw⟩ := skipWs_sound s
      split at h
      · cases h
      · rename_i c x hx
        rw [hx] at hs
        split at h
        · rename_i hc
          subst hc
          split at h
          · cases h
          · rename_i k y hk
            obtain ⟨kt, hkt, hk'⟩ := readStr_sound _ _ _ _ hk
            obtain ⟨w1, hs1, hw1⟩ := skipWs_sound y
            split at h
            · cases h
            · rename_i c z hz
              rw [hz] at hs1
              split at h
              · rename_i hc
                subst hc
                split at h
                · cases h
                · rename_i j u hu
                  obtain ⟨w2, t, hzt, hw2, ht⟩ := ihv _ _ _ hu
                  obtain ⟨w', hs', hw'⟩ := skipWs_sound u
                  split at h
                  · cases h
                  · rename_i c v hv
                    rw [hv] at hs'
                    split at h
                    · rename_i hc
                      subst hc
                      simp only [Option.map_eq_some_iff] at h
                      obtain ⟨⟨a, b⟩, hq, e⟩ := h
                      cases e
                      obtain ⟨t', ht', h'⟩ := ihm _ _ _ hq
                      refine ⟨_, ?_, .cons hw hk' hw1 hw2 ht hw' h'⟩
                      rw [hs, hkt, hs1, hzt, hs', ht']; simp
                    · split at h
                      · rename_i hc
                        subst hc
                        cases h
                        refine ⟨_, ?_, .one hw hk' hw1 hw2 ht hw'⟩
                        rw [hs, hkt, hs1, hzt, hs']; simp
                      · cases h
              · cases h
        · cases h

/-! ## Texts -/

/-- `s` completes the characters begun before it. -/
def V (st : Option (Nat × Nat × Nat)) (s : Str) : Prop := ∃ lo hi, s.foldl Wire.utf8Step st = some (0, lo, hi)

/-- States the UTF-8 reader can be in. -/
def G : Option (Nat × Nat × Nat) → Prop
  | none => True
  | some (0, _, _) => True
  | some (_ + 1, lo, hi) => 0x80 ≤ lo ∧ hi ≤ 0xBF

theorem G_zero : G (some (0, 0, 0)) := trivial

theorem utf8Valid_V (s : Str) : Wire.utf8Valid s = true ↔ V (some (0, 0, 0)) s := by
  unfold Wire.utf8Valid V
  generalize List.foldl Wire.utf8Step (some (0, 0, 0)) s = x
  rcases x with _ | ⟨_ | k, lo, hi⟩ <;> simp

theorem step_zero (a b a' b' : Nat) (c : Char) : Wire.utf8Step (some (0, a, b)) c = Wire.utf8Step (some (0, a', b')) c := rfl

theorem V_zero (a b : Nat) (s : Str) : V (some (0, a, b)) s ↔ V (some (0, 0, 0)) s := by
  cases s with
  | nil => exact ⟨fun _ => ⟨0, 0, rfl⟩, fun _ => ⟨a, b, rfl⟩⟩
  | cons c s =>
    unfold V
    rw [List.foldl_cons, List.foldl_cons, step_zero a b 0 0]

theorem V_none (s : Str) : ¬ V none s := by
  rintro ⟨lo, hi, h⟩; rw [Wire.fold_none] at h; cases h

theorem G_step {st : Option (Nat × Nat × Nat)} (h : G st) (c : Char) : G (Wire.utf8Step st c) := by
  rcases st with _ | ⟨_ | k, lo, hi⟩
  · trivial
  · simp only [Wire.utf8Step]
    repeat' split
    all_goals simp [G]
  · simp only [Wire.utf8Step]
    split
    · rcases k with _ | k
      · trivial
      · simp [G]
    · trivial

theorem G_fold {st : Option (Nat × Nat × Nat)} (h : G st) (s : Str) : G (s.foldl Wire.utf8Step st) := by
  induction s generalizing st with
  | nil => exact h
  | cons c s ih => exact ih (G_step h c)

theorem V_ascii {st : Option (Nat × Nat × Nat)} (hg : G st) {c : Char} (hc : c.toNat < 0x80) (s : Str) :
    V st (c :: s) ↔ (∃ a b, st = some (0, a, b)) ∧ V (some (0, 0, 0)) s := by
  rcases st with _ | ⟨_ | k, lo, hi⟩
  · constructor
    · intro h; exact absurd h (V_none _)
    · rintro ⟨⟨a, b, h⟩, -⟩; cases h
  · have : V (some (0, lo, hi)) (c :: s) ↔ V (some (0, 0, 0)) s := by
      unfold V
      rw [List.foldl_cons]
      simp only [Wire.utf8Step, if_pos hc]
    rw [this]
    exact ⟨fun h => ⟨⟨_, _, rfl⟩, h⟩, fun h => h.2⟩
  · constructor
    · intro h
      unfold V at h
      rw [List.foldl_cons] at h
      have hlt : ¬ (lo ≤ c.toNat ∧ c.toNat ≤ hi) := by have := hg.1; omega
      simp only [Wire.utf8Step, if_neg hlt, Wire.fold_none] at h
      obtain ⟨_, _, h⟩ := h; cases h
    · rintro ⟨⟨a, b, h⟩, -⟩; cases h

theorem V_split {c : Char} (hc : c.toNat < 0x80) (a b : Str) :
    V (some (0, 0, 0)) (a ++ c :: b) ↔ V (some (0, 0, 0)) a ∧ V (some (0, 0, 0)) b := by
  have hg : G (a.foldl Wire.utf8Step (some (0, 0, 0))) := G_fold G_zero a
  have : V (some (0, 0, 0)) (a ++ c :: b) ↔ V (a.foldl Wire.utf8Step (some (0, 0, 0))) (c :: b) := by
    unfold V; rw [List.foldl_append]
  rw [this, V_ascii hg hc]
  rfl

theorem V_cons {c : Char} (hc : c.toNat < 0x80) (s : Str) : V (some (0, 0, 0)) (c :: s) ↔ V (some (0, 0, 0)) s := by
  rw [V_ascii (by trivial) hc]
  exact ⟨fun h => h.2, fun h => ⟨⟨_, _, rfl⟩, h⟩⟩

theorem V_asciis {a : Str} (h : ∀ c ∈ a, c.toNat < 0x80) (s : Str) : V (some (0, 0, 0)) (a ++ s) ↔ V (some (0, 0, 0)) s := by
  induction a with
  | nil => rfl
  | cons c a ih =>
    rw [List.cons_append, V_cons (h c (by simp)), ih fun x hx => h x (List.mem_cons_of_mem _ hx)]

theorem V_nil : V (some (0, 0, 0)) [] := ⟨0, 0, rfl⟩

/-- A character written out in full is read in full, and only between characters. -/
theorem V_char {st : Option (Nat × Nat × Nat)} (hg : G st) (c : Char) (s : Str) :
    V st (charBytes c ++ s) ↔ (∃ a b, st = some (0, a, b)) ∧ V (some (0, 0, 0)) s := by
  rcases st with _ | ⟨_ | k, lo, hi⟩
  · constructor
    · intro h; exact absurd h (V_none _)
    · rintro ⟨⟨a, b, h⟩, -⟩; cases h
  · have : V (some (0, lo, hi)) (charBytes c ++ s) ↔ V (some (0, 0, 0)) s := by
      obtain ⟨lo', hi', h⟩ := Wire.fold_char c lo hi
      have e : V (some (0, lo, hi)) (charBytes c ++ s) ↔ V (some (0, lo', hi')) s := by
        unfold V; rw [List.foldl_append, h]
      rw [e, V_zero]
    rw [this]
    exact ⟨fun h => ⟨⟨_, _, rfl⟩, h⟩, fun h => h.2⟩
  · constructor
    · intro h
      obtain ⟨x, y, hxy, hx⟩ : ∃ x y, charBytes c = x :: y ∧ (x.toNat < 0x80 ∨ 0xC0 ≤ x.toNat) := by
        rw [← appendRune_charBytes]
        have hr := Wire.char_range c
        have e : c.toNat = c.val.toNat := rfl
        rw [e]
        generalize c.val.toNat = v at hr
        unfold appendRune
        split
        · exact ⟨_, _, rfl, .inl (by rw [Wire.toNat_ofNat_lt (by omega)]; omega)⟩
        · split
          · exact ⟨_, _, rfl, .inr (by rw [Wire.toNat_ofNat_lt (by omega)]; omega)⟩
          · split
            · exact ⟨_, _, rfl, .inr (by rw [Wire.toNat_ofNat_lt (by omega)]; omega)⟩
            · exact ⟨_, _, rfl, .inr (by rw [Wire.toNat_ofNat_lt (by omega)]; omega)⟩
      unfold V at h
      rw [hxy, List.cons_append, List.foldl_cons] at h
      have hlt : ¬ (lo ≤ x.toNat ∧ x.toNat ≤ hi) := by have := hg.1; have := hg.2; omega
      simp only [Wire.utf8Step, if_neg hlt, Wire.fold_none] at h
      obtain ⟨_, _, h⟩ := h; cases h
    · rintro ⟨⟨a, b, h⟩, -⟩; cases h

theorem hex_ascii {h : Str} {n : Nat} (hh : Hex4 h n) : ∀ c ∈ h, c.toNat < 0x80 := by
  obtain ⟨a, b, c, d, x, y, z, w, rfl, hx, hy, hz, hw, -⟩ := hh
  have key : ∀ {c : Char} {n : Nat}, HexDigit c n → c.toNat < 0x80 := by
    intro c n h
    have hn := hexDigit_lt h
    rcases h with h | h <;> interval_cases n <;> simp at h <;> subst h <;> decide
  intro e he
  simp only [List.mem_cons, List.not_mem_nil, or_false] at he
  rcases he with rfl | rfl | rfl | rfl
  · exact key hx
  · exact key hy
  · exact key hz
  · exact key hw

theorem strText_V {t s : Str} (h : StrText t s) : ∀ st, G st → (V st t ↔ V st s) := by
  induction h with
  | nil => intro st _; rfl
  | @plain c t s h1 h2 h3 h4 ih =>
    intro st hg
    have := ih (Wire.utf8Step st c) (G_step hg c)
    unfold V at this ⊢
    rw [List.foldl_cons, List.foldl_cons]
    exact this
  | @short e n t s h1 h2 ih =>
    intro st hg
    simp only [shortEscapes, List.mem_cons, Prod.mk.injEq, List.not_mem_nil, or_false] at h1
    have he : e.toNat < 0x80 ∧ (Char.ofNat n).toNat < 0x80 := by
      rcases h1 with ⟨rfl, rfl⟩ | ⟨rfl, rfl⟩ | ⟨rfl, rfl⟩ | ⟨rfl, rfl⟩ | ⟨rfl, rfl⟩ | ⟨rfl, rfl⟩ | ⟨rfl, rfl⟩ | ⟨rfl, rfl⟩ <;> decide
    rw [V_ascii hg (by decide), V_cons he.1, V_ascii hg he.2, ih _ G_zero]
  | @unicode h t s c h1 h2 ih =>
    intro st hg
    rw [V_ascii hg (by decide), V_cons (by decide), V_asciis (hex_ascii h1), V_char hg, ih _ G_zero]
  | @pair h l t s m n c h1 h2 _ _ _ _ _ _ ih =>
    intro st hg
    rw [V_ascii hg (by decide), V_cons (by decide), V_asciis (hex_ascii h1), V_cons (by decide), V_cons (by decide),
      V_asciis (hex_ascii h2), V_char hg, ih _ G_zero]

theorem ws_ascii {w : Str} (h : Ws w) : ∀ c ∈ w, c.toNat < 0x80 := by
  intro c hc
  have := h c hc
  simp only [List.mem_cons, List.not_mem_nil, or_false] at this
  rcases this with rfl | rfl | rfl | rfl <;> decide

theorem notDelim_ascii {c : Char} (h : notDelim c = true) : c.toNat < 0x80 := by
  simp only [notDelim, Bool.or_eq_true, decide_eq_true_eq] at h
  rcases h with ((((rfl | rfl) | rfl) | rfl) | h) | h
  · decide
  · decide
  · decide
  · decide
  · simp only [Char.isAlpha, Char.isUpper, Char.isLower, Bool.or_eq_true, Bool.and_eq_true, decide_eq_true_eq] at h
    have e : c.toNat = c.val.toNat := rfl
    rcases h with h | h
    · have := UInt32.le_iff_toNat_le.mp h.2; rw [e]; simp at this; omega
    · have := UInt32.le_iff_toNat_le.mp h.2; rw [e]; simp at this; omega
  · simp only [Char.isDigit, Bool.and_eq_true, decide_eq_true_eq] at h
    have e : c.toNat = c.val.toNat := rfl
    have := UInt32.le_iff_toNat_le.mp h.2; rw [e]; simp at this; omega

theorem V_append_ascii {b : Str} (h : ∀ c ∈ b, c.toNat < 0x80) (a : Str) : V (some (0, 0, 0)) (a ++ b) ↔ V (some (0, 0, 0)) a := by
  cases b with
  | nil => rw [List.append_nil]
  | cons c b =>
    rw [V_split (h c (by simp))]
    have : V (some (0, 0, 0)) b := by
      have := (V_asciis (fun x hx => h x (List.mem_cons_of_mem _ hx)) []).mpr V_nil
      rwa [List.append_nil] at this
    exact and_iff_left this

theorem V_ws_between {w : Str} (hw : Ws w) (a : Str) {c : Char} (hc : c.toNat < 0x80) (b : Str) :
    V (some (0, 0, 0)) (a ++ (w ++ c :: b)) ↔ V (some (0, 0, 0)) a ∧ V (some (0, 0, 0)) b := by
  rw [← List.append_assoc, V_split hc, V_append_ascii (ws_ascii hw)]

theorem jtext_V {j : Json} {t : Str} (h : JText j t) : V (some (0, 0, 0)) t ↔ textOk j = true := by
  have word : ∀ {w : Str}, (∀ c ∈ w, notDelim c = true) → V (some (0, 0, 0)) w := by
    intro w hw
    have := (V_asciis (fun c hc => notDelim_ascii (hw c hc)) []).mpr V_nil
    rwa [List.append_nil] at this
  refine JText.rec
    (motive_1 := fun j t _ => V (some (0, 0, 0)) t ↔ textOk j = true)
    (motive_2 := fun l t _ => V (some (0, 0, 0)) t ↔ textOks l = true)
    (motive_3 := fun l t _ => V (some (0, 0, 0)) t ↔ textOkm l = true)
    ?_ ?_ ?_ ?_ ?_ ?_ ?_ ?_ ?_ ?_ ?_ ?_ ?_ h
  · exact ⟨fun _ => by simp [textOk], fun _ => word (by decide)⟩
  · exact ⟨fun _ => by simp [textOk], fun _ => word (by decide)⟩
  · exact ⟨fun _ => by simp [textOk], fun _ => word (by decide)⟩
  · intro t hn
    exact ⟨fun _ => by simp [textOk], fun _ => word (isNumber_notDelim hn)⟩
  · intro t s hs
    rw [V_cons (by decide), V_append_ascii (by decide), strText_V hs _ G_zero, textOk, utf8Valid_V]
  · intro w hw
    rw [V_cons (by decide), V_append_ascii (by decide)]
    refine ⟨fun _ => by simp [textOk, textOks], fun _ => ?_⟩
    have := (V_asciis (ws_ascii hw) []).mpr V_nil
    rwa [List.append_nil] at this
  · intro l t ht ih
    rw [V_cons (by decide), V_append_ascii (by decide), ih, textOk]
  · intro w hw
    rw [V_cons (by decide), V_append_ascii (by decide)]
    refine ⟨fun _ => by simp [textOk, textOkm], fun _ => ?_⟩
    have := (V_asciis (ws_ascii hw) []).mpr V_nil
    rwa [List.append_nil] at this
  · intro l t ht ih
    rw [V_cons (by decide), V_append_ascii (by decide), ih, textOk]
  · intro j w t w' hw ht hw' ih
    rw [V_asciis (ws_ascii hw), V_append_ascii (ws_ascii hw'), ih]
    simp [textOks]
  · intro j l w t w' r hw ht hw' hr ih ih'
    rw [V_asciis (ws_ascii hw), V_ws_between hw' _ (by decide), ih, ih']
    simp [textOks]
  · intro k j w kt w1 w2 t w' hw hk hw1 hw2 ht hw' ih
    rw [V_asciis (ws_ascii hw), V_cons (by decide), V_split (by decide), V_asciis (ws_ascii hw1), V_cons (by decide),
      V_asciis (ws_ascii hw2), V_append_ascii (ws_ascii hw'), ih, strText_V hk _ G_zero, ← utf8Valid_V]
    simp [textOkm]
  · intro k j l w kt w1 w2 t w' r hw hk hw1 hw2 ht hw' hr ih ih'
    rw [V_asciis (ws_ascii hw), V_cons (by decide), V_split (by decide), V_asciis (ws_ascii hw1), V_cons (by decide),
      V_asciis (ws_ascii hw2), V_ws_between hw' _ (by decide), ih, ih', strText_V hk _ G_zero, ← utf8Valid_V]
    simp [textOkm, and_assoc]

/-- The reader reads exactly the documents of the grammar. -/
theorem read_iff (t : Str) (j : Json) : read t = some j ↔ JDoc j t := by
  have hws0 : ∀ {w : Str}, Ws w → skipWs w = [] := by
    intro w hw
    have := skipWs_append (s := []) hw
    rwa [List.append_nil] at this
  constructor
  · intro h
    unfold read at h
    split at h
    · rename_i j' r hv
      split at h
      · rename_i hc
        cases h
        obtain ⟨w, v, rfl, hw, ht⟩ := (read_sound _).1 _ _ _ hv
        obtain ⟨w', hr, hw'⟩ := skipWs_sound r
        rw [hc.1, List.append_nil] at hr
        subst hr
        refine ⟨(Wire.utf8Valid_iff _).mp ((utf8Valid_V _).mpr ?_), w, v, r, rfl, hw, ht, hw'⟩
        rw [V_asciis (ws_ascii hw), V_append_ascii (ws_ascii hw'), jtext_V ht]
        exact hc.2
      · cases h
    · cases h
  · rintro ⟨htext, w, v, w', rfl, hw, ht, hw'⟩
    have hd : Delim w' := by
      intro c hc
      cases w' with
      | nil => cases hc
      | cons d w' =>
        simp at hc
        have := hw' d (by simp)
        simp only [List.mem_cons, List.not_mem_nil, or_false] at this
        rw [← hc]
        rcases this with rfl | rfl | rfl | rfl <;> decide
    unfold read
    rw [readValue_of ht _ w w' hw (by simp; omega) (fun _ => hd)]
    simp only
    have hv := (utf8Valid_V _).mp ((Wire.utf8Valid_iff _).mpr htext)
    rw [V_asciis (ws_ascii hw), V_append_ascii (ws_ascii hw'), jtext_V ht] at hv
    rw [if_pos ⟨hws0 hw', hv⟩]

end OM.Json
