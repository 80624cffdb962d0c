import Verif.Model.Resp
import Verif.Lemmas.Config
import Verif.Lemmas.Redis
/-! # Lemmas: the bytes between om-core and Redis -/
namespace OM.Resp

/-! ## Commands -/

theorem line_head {h : Str} (hc : '\r' ∉ h) (r : Str) : line (h ++ crlf ++ r) = some (h, r) := by
  induction h with
  | nil => simp [crlf, line]
  | cons c h ih =>
    have h1 : c ≠ '\r' := fun e => hc (by simp [e])
    have h2 := ih fun e => hc (by simp [e])
    cases h with
    | nil => simp only [List.nil_append, List.cons_append] at h2 ⊢; simp only [crlf, List.cons_append, List.nil_append] at h2 ⊢
             rw [line, if_neg h1, h2]; rfl
    | cons d h => simp only [List.cons_append] at h2 ⊢; rw [line, if_neg h1, h2]; rfl

theorem line_none {h : Str} (hc : '\r' ∉ h) : line h = none := by
  induction h with
  | nil => rfl
  | cons c h ih =>
    have h1 : c ≠ '\r' := fun e => hc (by simp [e])
    have h2 := ih fun e => hc (by simp [e])
    cases h with
    | nil => rfl
    | cons d h => rw [line, if_neg h1, h2]; rfl

theorem line_none' {h : Str} (hc : '\r' ∉ h) : line (h ++ ['\r']) = none := by
  induction h with
  | nil => rfl
  | cons c h ih =>
    have h1 : c ≠ '\r' := fun e => hc (by simp [e])
    have h2 := ih fun e => hc (by simp [e])
    cases h with
    | nil => simp only [List.nil_append, List.cons_append] at h2 ⊢; rw [line, if_neg h1, h2]; rfl
    | cons d h => simp only [List.cons_append] at h2 ⊢; rw [line, if_neg h1, h2]; rfl

/-- A line that has not arrived in full. -/
theorem line_take {h : Str} (hc : '\r' ∉ h) {n : Nat} (hn : n < (h ++ crlf).length) : line ((h ++ crlf).take n) = none := by
  simp only [List.length_append, crlf, List.length_cons, List.length_nil] at hn
  rcases Nat.lt_or_ge n (h.length + 1) with hlt | hge
  · rw [List.take_append_of_le_length (by omega)]
    exact line_none fun e => hc (List.mem_of_mem_take e)
  · have : n = h.length + 1 := by omega
    subst this
    rw [List.take_append, List.take_of_length_le (by omega)]
    have : (h.length + 1 - h.length) = 1 := by omega
    rw [this]
    exact line_none' hc

theorem cr_fmtNat (n : Nat) : '\r' ∉ fmtNat n := fun h => absurd (isDigit_fmtNat h) (by decide)
theorem lf_fmtNat (n : Nat) : '\n' ∉ fmtNat n := fun h => absurd (isDigit_fmtNat h) (by decide)

theorem fmtInt_natCast (n : Nat) : fmtInt (n : Int) = fmtNat n := rfl

theorem redisInt_fmtNat {n : Nat} (h : n < 2 ^ 63) : Conf.redisInt (fmtNat n) = some (n : Int) := by
  rw [← fmtInt_natCast]
  exact Conf.redisInt_fmtInt (by omega) (by omega)

theorem bulk_eq (s r : Str) : bulk s ++ r = ('$' :: fmtNat s.length) ++ crlf ++ (s ++ crlf ++ r) := by
  simp [bulk, List.append_assoc]

theorem cr_bulkHead (n : Nat) : '\r' ∉ '$' :: fmtNat n := by
  intro h
  rcases List.mem_cons.mp h with h | h
  · exact absurd h (by decide)
  · exact cr_fmtNat n h

theorem bulk_length (s : Str) : (bulk s).length = (fmtNat s.length).length + s.length + 5 := by
  simp [bulk, crlf]; omega

theorem readBulk_line {n : Nat} (hs : n ≤ maxBulk) (r : Str) :
    readBulk (('$' :: fmtNat n) ++ crlf ++ r) =
      if r.length < n + 2 then .more else .ok (r.take n) (r.drop (n + 2)) := by
  unfold readBulk
  rw [line_head (cr_bulkHead _)]
  have hlt : n < 2 ^ 63 := by unfold maxBulk at hs; omega
  simp only [redisInt_fmtNat hlt]
  rw [if_neg (by push Not; constructor <;> omega)]
  simp

/-- An argument that has arrived is read, whatever its bytes are. -/
theorem readBulk_bulk {s : Str} (hs : s.length ≤ maxBulk) (r : Str) : readBulk (bulk s ++ r) = .ok s r := by
  rw [bulk_eq, readBulk_line hs, if_neg (by simp [crlf])]
  congr 1
  · rw [List.append_assoc, List.take_left' rfl]
  · exact List.drop_left' (by simp [crlf])

theorem readBulk_take {s : Str} (hs : s.length ≤ maxBulk) {n : Nat} (hn : n < (bulk s).length) :
    readBulk ((bulk s).take n) = .more := by
  have e : bulk s = (('$' :: fmtNat s.length) ++ crlf) ++ (s ++ crlf) := by simpa using bulk_eq s []
  rcases Nat.lt_or_ge n (('$' :: fmtNat s.length) ++ crlf).length with h | h
  · have : line ((bulk s).take n) = none := by
      rw [e, List.take_append_of_le_length (by omega)]
      exact line_take (cr_bulkHead _) h
    unfold readBulk; rw [this]
  · rw [e, List.take_append, List.take_of_length_le (by omega), readBulk_line hs, if_pos]
    rw [List.length_take]
    have := bulk_length s
    simp [crlf] at h hn this ⊢
    omega

theorem readBulks_bulks {args : List Str} (hs : ∀ a ∈ args, a.length ≤ maxBulk) (r : Str) :
    readBulks args.length (args.flatMap bulk ++ r) = .ok args r := by
  induction args with
  | nil => rfl
  | cons a args ih =>
    simp only [List.length_cons, List.flatMap_cons, List.append_assoc, readBulks]
    rw [readBulk_bulk (hs a (by simp))]
    simp only [ih fun b hb => hs b (by simp [hb])]

theorem readBulks_take {args : List Str} (hs : ∀ a ∈ args, a.length ≤ maxBulk) {n : Nat}
    (hn : n < (args.flatMap bulk).length) : readBulks args.length ((args.flatMap bulk).take n) = .more := by
  induction args generalizing n with
  | nil => simp at hn
  | cons a args ih =>
    simp only [List.length_cons, List.flatMap_cons, readBulks]
    rcases Nat.lt_or_ge n (bulk a).length with h | h
    · rw [List.take_append_of_le_length (by omega), readBulk_take (hs a (by simp)) h]
    · rw [List.take_append, List.take_of_length_le h, readBulk_bulk (hs a (by simp))]
      simp only [List.flatMap_cons, List.length_append] at hn
      simp only [ih (fun b hb => hs b (by simp [hb])) (n := n - (bulk a).length) (by omega)]

/-- What Redis takes: few enough arguments, none of them too long. -/
def Fits (args : List Str) : Prop := args ≠ [] ∧ args.length ≤ 2147483647 ∧ ∀ a ∈ args, a.length ≤ maxBulk

theorem cr_cmdHead (n : Nat) : '\r' ∉ '*' :: fmtNat n := by
  intro h
  rcases List.mem_cons.mp h with h | h
  · exact absurd h (by decide)
  · exact cr_fmtNat n h

theorem readCmd_line {n : Nat} (hs : n ≤ 2147483647) (r : Str) :
    readCmd (('*' :: fmtNat n) ++ crlf ++ r) = readBulks n r := by
  have hl := line_head (cr_cmdHead n) r
  simp only [List.cons_append] at hl ⊢
  simp only [readCmd, if_true, hl, List.drop_succ_cons, List.drop_zero, redisInt_fmtNat (show n < 2 ^ 63 by omega)]
  rw [if_neg (by omega)]
  simp

theorem command_eq (args : List Str) (r : Str) :
    command args ++ r = ('*' :: fmtNat args.length) ++ crlf ++ (args.flatMap bulk ++ r) := by
  simp [command, List.append_assoc]

theorem readCmd_command {args : List Str} (hf : Fits args) (r : Str) : readCmd (command args ++ r) = .ok args r := by
  rw [command_eq, readCmd_line hf.2.1, readBulks_bulks hf.2.2]

theorem readCmd_take {args : List Str} (hf : Fits args) {n : Nat} (hn : n < (command args).length) :
    readCmd ((command args).take n) = .more := by
  have e : command args = (('*' :: fmtNat args.length) ++ crlf) ++ args.flatMap bulk := by simpa using command_eq args []
  rcases Nat.lt_or_ge n (('*' :: fmtNat args.length) ++ crlf).length with h | h
  · rcases Nat.eq_zero_or_pos n with h0 | h0
    · subst h0; rfl
    · have hl : line ((command args).take n) = none := by
        rw [e, List.take_append_of_le_length (by omega)]
        exact line_take (cr_cmdHead _) h
      have hc : ∃ t, (command args).take n = '*' :: t := by
        obtain ⟨k, rfl⟩ := Nat.exists_eq_succ_of_ne_zero (Nat.pos_iff_ne_zero.1 h0)
        exact ⟨_, by rw [e, List.cons_append, List.cons_append, List.take_succ_cons]⟩
      obtain ⟨t, ht⟩ := hc
      rw [ht] at hl ⊢
      simp [readCmd, hl]
  · rw [e, List.take_append, List.take_of_length_le (by omega), readCmd_line hf.2.1, readBulks_take hf.2.2]
    rw [e, List.length_append] at hn
    omega

theorem command_pos (args : List Str) : 0 < (command args).length := by simp [command]

/-- How many of the commands are complete within the first `n` bytes. -/
def whole : List (List Str) → Nat → Nat
  | [], _ => 0
  | a :: as, n => if n < (command a).length then 0 else whole as (n - (command a).length) + 1

theorem whole_le (cs : List (List Str)) (n : Nat) : whole cs n ≤ cs.length := by
  induction cs generalizing n with
  | nil => simp [whole]
  | cons a as ih =>
    unfold whole; split
    · omega
    · have := ih (n - (command a).length); simp; omega

theorem whole_all {cs : List (List Str)} {n : Nat} (h : (cs.flatMap command).length ≤ n) : whole cs n = cs.length := by
  induction cs generalizing n with
  | nil => rfl
  | cons a as ih =>
    simp only [List.flatMap_cons, List.length_append] at h
    rw [whole, if_neg (by omega), ih (by omega)]; rfl

theorem whole_lt {cs : List (List Str)} {n : Nat} (h : n < (cs.flatMap command).length) : whole cs n < cs.length := by
  induction cs generalizing n with
  | nil => simp at h
  | cons a as ih =>
    simp only [List.flatMap_cons, List.length_append] at h
    unfold whole; split
    · simp
    · have := ih (n := n - (command a).length) (by omega); simp; omega

theorem cmdsF_take {cs : List (List Str)} (hf : ∀ c ∈ cs, Fits c) (n f : Nat)
    (hl : ((cs.flatMap command).take n).length ≤ f) : cmdsF f ((cs.flatMap command).take n) = cs.take (whole cs n) := by
  induction cs generalizing n f with
  | nil => cases f <;> simp [cmdsF, readCmd]
  | cons a as ih =>
    simp only [List.flatMap_cons] at hl ⊢
    unfold whole
    split
    · rename_i h
      rw [List.take_append_of_le_length (by omega)]
      cases f with
      | zero => simp [cmdsF]
      | succ f => rw [cmdsF, readCmd_take (hf a (by simp)) h]; simp
    · rename_i h
      rw [List.take_append, List.take_of_length_le (by omega)] at hl ⊢
      have hp := command_pos a
      rw [List.length_append] at hl
      cases f with
      | zero => omega
      | succ f =>
        rw [cmdsF, readCmd_command (hf a (by simp))]
        have ih := ih (fun c hc => hf c (by simp [hc])) (n - (command a).length) f (by omega)
        have ha := (hf a (by simp)).1
        cases a with
        | nil => exact absurd rfl ha
        | cons x xs => simp only [ih, List.take_succ_cons]

/-- Of the bytes of some commands, however many arrive, Redis takes the commands that are complete. -/
theorem cmdsOf_take {cs : List (List Str)} (hf : ∀ c ∈ cs, Fits c) (n : Nat) :
    cmdsOf ((cs.flatMap command).take n) = cs.take (whole cs n) := cmdsF_take hf n _ (Nat.le_refl _)

/-! ## Replies -/

theorem readLine_head {h : Str} (hc : '\n' ∉ h) (r : Str) : readLine (h ++ crlf ++ r) = some (h, r) := by
  have e : h ++ crlf ++ r = (h ++ ['\r']) ++ '\n' :: r := by simp [crlf]
  have hn : ∀ c ∈ h ++ ['\r'], decide (c ≠ '\n') = true := by
    intro c hc'
    rcases List.mem_append.1 hc' with h' | h'
    · simp only [decide_eq_true_eq]; rintro rfl; exact hc h'
    · simp at h'; subst h'; decide
  unfold readLine
  rw [e, List.takeWhile_append_of_pos hn, List.dropWhile_append_of_pos hn]
  simp

theorem readLine_take {h : Str} (hc : '\n' ∉ h) {n : Nat} (hn : n < (h ++ crlf).length) :
    readLine ((h ++ crlf).take n) = none := by
  have e : h ++ crlf = (h ++ ['\r']) ++ ['\n'] := by simp [crlf]
  have hn' : ∀ c ∈ (h ++ crlf).take n, decide (c ≠ '\n') = true := by
    intro c hc'
    rw [e, List.take_append_of_le_length (by simp [crlf] at hn ⊢; omega)] at hc'
    rcases List.mem_append.1 (List.mem_of_mem_take hc') with h' | h'
    · simp only [decide_eq_true_eq]; rintro rfl; exact hc h'
    · simp at h'; subst h'; decide
  unfold readLine
  rw [show ((h ++ crlf).take n).dropWhile (fun x => decide (x ≠ '\n')) = [] from by
    have := List.dropWhile_append_of_pos (l₂ := []) hn'
    simpa using this]

/-- Errors and simple strings are one line. -/
inductive Rep.Ok : Rep → Prop
  | status {s} : '\n' ∉ s → Ok (.status s)
  | str {s} : Ok (.str s)
  | err {e} : '\n' ∉ e → Ok (.err e)
  | int {n} : Ok (.int n)
  | nil : Ok .nil
  | arr {l} : (∀ r ∈ l, Ok r) → Ok (.arr l)

mutual
def depth : Rep → Nat
  | .arr l => depths l + 1
  | _ => 1
def depths : List Rep → Nat
  | [] => 0
  | r :: rs => max (depth r) (depths rs)
end

theorem parseLen_fmtNat (n : Nat) : parseLen (fmtNat n) = some (n : Int) := by
  unfold parseLen
  rw [if_neg (fmtNat_ne_nil n), if_neg, if_pos, ofDigitChars_fmtNat]
  · simp only [List.all_eq_true]; exact fun c hc => isDigit_fmtNat hc
  · intro h
    have : '-' ∈ fmtNat n := by rw [h]; simp
    exact absurd (isDigit_fmtNat this) (by decide)

theorem parseInt_fmtInt (n : Int) : parseInt (fmtInt n) = some n := by
  have hd : ∀ k, (fmtNat k).all (·.isDigit) = true := fun k => by
    simp only [List.all_eq_true]; exact fun c hc => isDigit_fmtNat hc
  cases n with
  | ofNat k =>
    have hh : fmtInt (Int.ofNat k) = fmtNat k := rfl
    rw [hh]
    have hv := ofDigitChars_fmtNat k
    have hk := hd k
    cases h : fmtNat k with
    | nil => exact absurd h (fmtNat_ne_nil k)
    | cons c s =>
      have hc : c ≠ '-' := by
        rintro rfl
        exact absurd (isDigit_fmtNat (n := k) (c := '-') (by rw [h]; simp)) (by decide)
      rw [h] at hv hk
      unfold parseInt
      split
      · rename_i e; cases e
      · rename_i e; cases e; exact absurd rfl hc
      · rw [if_pos hk, hv]; rfl
  | negSucc k =>
    have hh : fmtInt (Int.negSucc k) = '-' :: fmtNat (k + 1) := rfl
    rw [hh, parseInt, if_pos ⟨fmtNat_ne_nil _, hd _⟩, ofDigitChars_fmtNat]
    simp [Int.negSucc_eq]

theorem lf_fmtInt (n : Int) : '\n' ∉ fmtInt n := by
  cases n with
  | ofNat k => exact lf_fmtNat k
  | negSucc k =>
    intro h
    rcases List.mem_cons.1 h with h | h
    · exact absurd h (by decide)
    · exact lf_fmtNat _ h

theorem lf_cons {c : Char} {s : Str} (hc : c ≠ '\n') (h : '\n' ∉ s) : '\n' ∉ c :: s := by
  intro e
  rcases List.mem_cons.1 e with e | e
  · exact hc e.symm
  · exact h e

theorem encode_status (s r : Str) : encode (.status s) ++ r = ('+' :: s) ++ crlf ++ r := by rw [encode]
theorem encode_err (s r : Str) : encode (.err s) ++ r = ('-' :: s) ++ crlf ++ r := by rw [encode]
theorem encode_int (n : Int) (r : Str) : encode (.int n) ++ r = (':' :: fmtInt n) ++ crlf ++ r := by rw [encode]
theorem encode_nil (r : Str) : encode .nil ++ r = ['*', '-', '1'] ++ crlf ++ r := by rw [encode]; rfl
theorem encode_str (s r : Str) : encode (.str s) ++ r = ('$' :: fmtNat s.length) ++ crlf ++ (s ++ crlf ++ r) := by
  rw [encode, bulk_eq]
theorem encode_arr (l : List Rep) (r : Str) :
    encode (.arr l) ++ r = ('*' :: fmtNat l.length) ++ crlf ++ (encodes l ++ r) := by
  rw [encode]; simp [List.append_assoc]

/-- The value of a line. -/
theorem readRep_line (f : Nat) {c : Char} {t : Str} (hc : '\n' ∉ c :: t) (r : Str) :
    readRep (f + 1) ((c :: t) ++ crlf ++ r) =
      (if c = '+' then some (.status t, r)
        else if c = '-' then some (.err t, r)
        else if c = ':' then (parseInt t).map fun n => (.int n, r)
        else if c = '$' then
          (parseLen t).bind fun n =>
            if n < 0 then some (.nil, r)
            else if r.length < n.toNat then none
            else (readLine (r.drop n.toNat)).bind fun (l, r') => if l = [] then some (.str (r.take n.toNat), r') else none
        else if c = '*' then
          (parseLen t).bind fun n =>
            if n < 0 then some (.nil, r)
            else (times (readRep f) n.toNat r).map fun p => (.arr p.1, p.2)
        else none) := by
  rw [readRep, readLine_head hc]
  rfl

theorem readRep_take_line (f : Nat) {h : Str} (hc : '\n' ∉ h) {n : Nat} (hn : n < (h ++ crlf).length) (r : Str) :
    readRep f ((h ++ crlf ++ r).take n) = none := by
  cases f with
  | zero => rfl
  | succ f =>
    rw [List.take_append_of_le_length (by omega), readRep, readLine_take hc hn]
    rfl

mutual
/-- A reply that has arrived is read. -/
theorem readRep_encode : ∀ (q : Rep) (f : Nat) (r : Str), q.Ok → depth q ≤ f → readRep f (encode q ++ r) = some (q, r)
  | q, 0, r, _, hd => by cases q <;> simp [depth] at hd
  | .status s, f + 1, r, h, _ => by
    cases h with | status h => ?_
    rw [encode_status, readRep_line f (lf_cons (by decide) h)]; rfl
  | .err s, f + 1, r, h, _ => by
    cases h with | err h => ?_
    rw [encode_err, readRep_line f (lf_cons (by decide) h)]; rfl
  | .int n, f + 1, r, h, _ => by
    rw [encode_int, readRep_line f (lf_cons (by decide) (lf_fmtInt n))]
    simp [parseInt_fmtInt]
  | .nil, f + 1, r, h, _ => by
    rw [encode_nil, readRep_line f (by decide)]; rfl
  | .str s, f + 1, r, h, _ => by
    rw [encode_str, readRep_line f (lf_cons (by decide) (lf_fmtNat _))]
    have e1 : (s ++ crlf ++ r).drop s.length = [] ++ crlf ++ r := by rw [List.append_assoc, List.drop_left' rfl]; rfl
    have e2 : (s ++ crlf ++ r).take s.length = s := by rw [List.append_assoc, List.take_left' rfl]
    simp only [parseLen_fmtNat, Option.bind_some, Int.toNat_natCast, e1, e2, readLine_head (h := []) (by simp)]
    rw [if_neg (by decide), if_neg (by decide), if_neg (by decide), if_pos trivial, if_neg (by omega), if_neg (by simp), if_pos trivial]
  | .arr l, f + 1, r, h, hd => by
    cases h with | arr h => ?_
    rw [encode_arr, readRep_line f (lf_cons (by decide) (lf_fmtNat _))]
    have := times_encodes l f r h (by simp [depth] at hd; omega)
    simp only [parseLen_fmtNat, Option.bind_some, Int.toNat_natCast, this]
    rw [if_neg (by decide), if_neg (by decide), if_neg (by decide), if_neg (by decide), if_pos trivial, if_neg (by omega)]
    rfl
theorem times_encodes : ∀ (l : List Rep) (f : Nat) (r : Str), (∀ q ∈ l, q.Ok) → depths l ≤ f →
    times (readRep f) l.length (encodes l ++ r) = some (l, r)
  | [], f, r, _, _ => rfl
  | q :: l, f, r, h, hd => by
    simp only [depths] at hd
    rw [encodes, List.append_assoc, List.length_cons, times, readRep_encode q f _ (h q (by simp)) (by omega)]
    simp only [Option.bind_some]
    rw [times_encodes l f r (fun q hq => h q (by simp [hq])) (by omega)]
    rfl
end

theorem times_mono {α : Type} {rd rd' : Str → Option (α × Str)} (h : ∀ s x, rd s = some x → rd' s = some x) (n : Nat) :
    ∀ s x, times rd n s = some x → times rd' n s = some x := by
  induction n with
  | zero => exact fun s x hx => hx
  | succ n ih =>
    intro s x hx
    rw [times] at hx ⊢
    obtain ⟨p, hp, hq⟩ := Option.bind_eq_some_iff.1 hx
    obtain ⟨q, hq, he⟩ := Option.map_eq_some_iff.1 hq
    rw [h s p hp, Option.bind_some, ih _ _ hq, ← he]
    rfl

theorem readRep_mono (f : Nat) : ∀ s x, readRep f s = some x → readRep (f + 1) s = some x := by
  induction f with
  | zero => intro s x h; cases h
  | succ f ih =>
    intro s x h
    rw [readRep] at h ⊢
    obtain ⟨⟨l, r⟩, hp, hq⟩ := Option.bind_eq_some_iff.1 h
    rw [hp, Option.bind_some]
    dsimp only at hq ⊢
    cases l with
    | nil => exact hq
    | cons c t =>
      dsimp only at hq ⊢
      by_cases h1 : c = '*'
      · subst h1
        rw [if_neg (by decide), if_neg (by decide), if_neg (by decide), if_neg (by decide), if_pos rfl] at hq ⊢
        obtain ⟨n, hn, hq⟩ := Option.bind_eq_some_iff.1 hq
        rw [hn, Option.bind_some]
        split at hq
        · rename_i h2; rw [if_pos h2]; exact hq
        · rename_i h2
          rw [if_neg h2]
          obtain ⟨p, hp, he⟩ := Option.map_eq_some_iff.1 hq
          rw [times_mono ih _ _ _ hp, ← he]
          rfl
      · rw [if_neg h1] at hq ⊢
        exact hq

theorem readRep_le {f g : Nat} (h : f ≤ g) : ∀ s x, readRep f s = some x → readRep g s = some x := by
  induction h with
  | refl => exact fun s x hx => hx
  | step h ih => exact fun s x hx => readRep_mono _ _ _ (ih s x hx)

mutual
/-- Part of a reply is not read. -/
theorem readRep_take : ∀ (q : Rep) (f n : Nat), q.Ok → depth q ≤ f → n < (encode q).length → readRep f ((encode q).take n) = none
  | q, 0, n, _, hd, _ => by cases q <;> simp [depth] at hd
  | .status s, f + 1, n, h, _, hn => by
    cases h with | status h => ?_
    have e := encode_status s []
    rw [List.append_nil] at e; rw [e] at hn ⊢
    exact readRep_take_line _ (lf_cons (by decide) h) (by simpa using hn) []
  | .err s, f + 1, n, h, _, hn => by
    cases h with | err h => ?_
    have e := encode_err s []
    rw [List.append_nil] at e; rw [e] at hn ⊢
    exact readRep_take_line _ (lf_cons (by decide) h) (by simpa using hn) []
  | .int k, f + 1, n, h, _, hn => by
    have e := encode_int k []
    rw [List.append_nil] at e; rw [e] at hn ⊢
    exact readRep_take_line _ (lf_cons (by decide) (lf_fmtInt k)) (by simpa using hn) []
  | .nil, f + 1, n, h, _, hn => by
    have e := encode_nil []
    rw [List.append_nil] at e; rw [e] at hn ⊢
    exact readRep_take_line _ (by decide) (by simpa using hn) []
  | .str s, f + 1, n, h, _, hn => by
    have e := encode_str s []
    rw [List.append_nil, List.append_nil] at e; rw [e] at hn ⊢
    have hl : '\n' ∉ '$' :: fmtNat s.length := lf_cons (by decide) (lf_fmtNat _)
    rcases Nat.lt_or_ge n (('$' :: fmtNat s.length) ++ crlf).length with h' | h'
    · exact readRep_take_line _ hl h' _
    · rw [List.take_append, List.take_of_length_le h', readRep_line f hl]
      rw [List.length_append] at hn
      generalize hm : n - (('$' :: fmtNat s.length) ++ crlf).length = m
      have hm' : m < (s ++ crlf).length := by omega
      simp only [parseLen_fmtNat, Option.bind_some, Int.toNat_natCast]
      rw [if_neg (by decide), if_neg (by decide), if_neg (by decide), if_pos trivial, if_neg (by omega)]
      split
      · rfl
      · rename_i h2
        rw [List.length_take] at h2
        have e1 : ((s ++ crlf).take m).drop s.length = ([] ++ crlf).take (m - s.length) := by
          rw [List.drop_take, List.drop_left' rfl]; rfl
        rw [e1, readLine_take (h := []) (by simp)]
        · rfl
        · simp only [List.length_append, List.length_nil, crlf, List.length_cons] at hm' h2 ⊢; omega
  | .arr l, f + 1, n, h, hd, hn => by
    cases h with | arr h => ?_
    have e := encode_arr l []
    rw [List.append_nil, List.append_nil] at e; rw [e] at hn ⊢
    have hl : '\n' ∉ '*' :: fmtNat l.length := lf_cons (by decide) (lf_fmtNat _)
    rcases Nat.lt_or_ge n (('*' :: fmtNat l.length) ++ crlf).length with h' | h'
    · exact readRep_take_line _ hl h' _
    · rw [List.take_append, List.take_of_length_le h', readRep_line f hl]
      rw [List.length_append] at hn
      have := times_take l f (n - (('*' :: fmtNat l.length) ++ crlf).length) h (by simp [depth] at hd; omega) (by omega)
      simp only [parseLen_fmtNat, Option.bind_some, Int.toNat_natCast, this]
      rw [if_neg (by decide), if_neg (by decide), if_neg (by decide), if_neg (by decide), if_pos trivial, if_neg (by omega)]
      rfl
theorem times_take : ∀ (l : List Rep) (f n : Nat), (∀ q ∈ l, q.Ok) → depths l ≤ f → n < (encodes l).length →
    times (readRep f) l.length ((encodes l).take n) = none
  | [], f, n, _, _, hn => by simp [encodes] at hn
  | q :: l, f, n, h, hd, hn => by
    simp only [depths] at hd
    rw [encodes] at hn ⊢
    rw [List.length_cons, times]
    rcases Nat.lt_or_ge n (encode q).length with h' | h'
    · rw [List.take_append_of_le_length (by omega), readRep_take q f n (h q (by simp)) (by omega) h']; rfl
    · rw [List.take_append, List.take_of_length_le h']
      rw [readRep_encode q f _ (h q (by simp)) (by omega)]
      simp only [Option.bind_some]
      rw [List.length_append] at hn
      rw [times_take l f _ (fun q hq => h q (by simp [hq])) (by omega) (by omega)]; rfl
end

mutual
theorem depth_le : ∀ q : Rep, depth q ≤ (encode q).length
  | .status s => by simp [depth, encode]
  | .str s => by simp [depth, encode, bulk]
  | .err s => by simp [depth, encode]
  | .int n => by simp [depth, encode]
  | .nil => by simp [depth, encode]
  | .arr l => by have := depths_le l; simp [depth, encode]; omega
theorem depths_le : ∀ l : List Rep, depths l ≤ (encodes l).length
  | [] => by simp [depths]
  | q :: l => by have := depth_le q; have := depths_le l; simp [depths, encodes]; omega
end

theorem readRep_empty (f : Nat) : readRep f [] = none := by
  cases f with
  | zero => rfl
  | succ f => rfl

theorem times_none {f g : Nat} (h : f ≤ g) {n : Nat} {s : Str} (hs : times (readRep g) n s = none) :
    times (readRep f) n s = none := by
  cases hx : times (readRep f) n s with
  | none => rfl
  | some x =>
    rw [times_mono (readRep_le h) n s x hx] at hs; cases hs

/-- If replies are missing, or part of one, there is an error. -/
theorem times_short : ∀ (l : List Rep) (f n b : Nat), (∀ q ∈ l, q.Ok) → depths l ≤ f → l.length ≤ n →
    b < (encodes l).length ∨ l.length < n → times (readRep f) n ((encodes l).take b) = none
  | [], f, n, b, _, _, _, hb => by
    simp only [encodes, List.length_nil, Nat.not_lt_zero, false_or] at hb
    obtain ⟨k, rfl⟩ := Nat.exists_eq_succ_of_ne_zero (Nat.pos_iff_ne_zero.1 hb)
    simp [encodes, times, readRep_empty]
  | q :: l, f, n, b, h, hd, hn, hb => by
    simp only [depths] at hd
    obtain ⟨k, rfl⟩ := Nat.exists_eq_succ_of_ne_zero (show n ≠ 0 by simp at hn; omega)
    simp only [List.length_cons] at hn hb
    rw [encodes] at hb ⊢
    rw [List.length_append] at hb
    rw [times]
    rcases Nat.lt_or_ge b (encode q).length with h' | h'
    · rw [List.take_append_of_le_length (by omega), readRep_take q f b (h q (by simp)) (by omega) h']; rfl
    · rw [List.take_append, List.take_of_length_le h', readRep_encode q f _ (h q (by simp)) (by omega)]
      simp only [Option.bind_some]
      rw [times_short l f k _ (fun q hq => h q (by simp [hq])) (by omega) (by omega) (by omega)]; rfl

theorem replies_all {l : List Rep} (h : ∀ q ∈ l, q.Ok) {b : Nat} (hb : (encodes l).length ≤ b) :
    replies l.length ((encodes l).take b) = some l := by
  rw [List.take_of_length_le hb]
  have := times_encodes l ((encodes l).length + 1) [] h (by have := depths_le l; omega)
  rw [List.append_nil] at this
  rw [replies, this]; rfl

theorem replies_short {l : List Rep} (h : ∀ q ∈ l, q.Ok) {n b : Nat} (hn : l.length ≤ n)
    (hb : b < (encodes l).length ∨ l.length < n) : replies n ((encodes l).take b) = none := by
  rw [replies]
  have := times_short l (max (depths l) (((encodes l).take b).length + 1)) n b h (by omega) hn hb
  rw [times_none (Nat.le_max_right _ _) this]; rfl

/-! ## Redis -/

theorem execs_length {s : Stream} {as : List (List Str)} {es : List CmdEnv} (h : as.length ≤ es.length) :
    (execs s as es).2.length = as.length := by
  induction as generalizing s es with
  | nil => cases es <;> rfl
  | cons a as ih =>
    cases es with
    | nil => simp at h
    | cons e es =>
      have h : as.length ≤ es.length := by simpa using h
      rw [execs]
      split <;> simp [ih h]

theorem lf_badArgs : '\n' ∉ badArgs := by decide
theorem lf_unsupported : '\n' ∉ unsupported := by decide
theorem lf_badId : '\n' ∉ badId := by decide
theorem lf_notAnInt : '\n' ∉ notAnInt := by decide

theorem xread_ok (s : Stream) (args : List Str) : (xread s args).Ok := by
  unfold xread
  split
  · split
    · exact .err lf_unsupported
    · split
      · split
        · exact .err (by decide)
        · split
          · exact .err lf_badId
          · unfold entriesRep
            split
            · exact .nil
            · refine .arr fun r hr => ?_
              simp only [List.mem_singleton] at hr; subst hr
              refine .arr fun r hr => ?_
              simp only [List.mem_cons, List.not_mem_nil, or_false] at hr
              rcases hr with rfl | rfl
              · exact .str
              · refine .arr fun r hr => ?_
                obtain ⟨e, _, rfl⟩ := List.mem_map.1 hr
                refine .arr fun r hr => ?_
                simp only [List.mem_cons, List.not_mem_nil, or_false] at hr
                rcases hr with rfl | rfl
                · exact .str
                · refine .arr fun r hr => ?_
                  obtain ⟨x, _, rfl⟩ := List.mem_map.1 hr
                  exact .str
      · exact .err lf_notAnInt
  · exact .err lf_badArgs

theorem exec_ok (s : Stream) (nowMs : Nat) (args : List Str) : (exec s nowMs args).2.Ok := by
  unfold exec
  split
  · exact .err lf_badArgs
  · split
    · unfold xadd
      split
      · split
        · exact .err lf_unsupported
        · split
          · exact .err lf_badArgs
          · exact .str
      · exact .err lf_badArgs
    · split
      · unfold xtrim
        split
        · split
          · exact .err lf_unsupported
          · split
            · exact .err lf_badId
            · exact .int
        · exact .err lf_badArgs
      · split
        · exact xread_ok s _
        · exact .err lf_unsupported

/-- Error texts are one line (Redis replaces line ends in them). -/
def OneLine (es : List CmdEnv) : Prop := ∀ e ∈ es, ∀ m, e.fail = some m → '\n' ∉ m

theorem execs_ok {s : Stream} {as : List (List Str)} {es : List CmdEnv} (h : OneLine es) :
    ∀ r ∈ (execs s as es).2, r.Ok := by
  induction as generalizing s es with
  | nil => cases es <;> simp [execs]
  | cons a as ih =>
    cases es with
    | nil => simp [execs]
    | cons e es =>
      have h' : OneLine es := fun x hx => h x (by simp [hx])
      rw [execs]
      split
      · rename_i m hm
        intro r hr
        rcases List.mem_cons.1 hr with rfl | hr
        · exact .err (h e (by simp) m hm)
        · exact ih h' r hr
      · intro r hr
        rcases List.mem_cons.1 hr with rfl | hr
        · exact exec_ok _ _ _
        · exact ih h' r hr

/-- Everything gets through. -/
def Through (s : Stream) (cmds : List (List Str)) (es : List CmdEnv) (c : Cut) : Prop :=
  (cmds.flatMap command).length ≤ c.sent ∧ (encodes (execs s cmds es).2).length ≤ c.back

instance (s : Stream) (cmds : List (List Str)) (es : List CmdEnv) (c : Cut) : Decidable (Through s cmds es c) :=
  inferInstanceAs (Decidable (_ ∧ _))

theorem exchange_through {s : Stream} {cmds : List (List Str)} {es : List CmdEnv} {c : Cut} (hf : ∀ a ∈ cmds, Fits a)
    (ho : OneLine es) (hl : cmds.length ≤ es.length) (h : Through s cmds es c) :
    exchange s cmds es c = ((execs s cmds es).1, some (execs s cmds es).2) := by
  unfold exchange
  dsimp only
  rw [cmdsOf_take hf, whole_all h.1, List.take_length]
  congr 1
  have := replies_all (execs_ok (s := s) (as := cmds) ho) h.2
  rwa [execs_length hl] at this

theorem exchange_cut {s : Stream} {cmds : List (List Str)} {es : List CmdEnv} {c : Cut} (hf : ∀ a ∈ cmds, Fits a)
    (ho : OneLine es) (hl : cmds.length ≤ es.length) (h : ¬ Through s cmds es c) :
    exchange s cmds es c = ((execs s (cmds.take (whole cmds c.sent)) es).1, none) := by
  unfold exchange
  dsimp only
  rw [cmdsOf_take hf]
  congr 1
  have hw := whole_le cmds c.sent
  have hlen : (execs s (cmds.take (whole cmds c.sent)) es).2.length = whole cmds c.sent := by
    rw [execs_length (by rw [List.length_take]; omega), List.length_take]; omega
  refine replies_short (execs_ok ho) (by omega) ?_
  rw [hlen]
  unfold Through at h
  by_cases h1 : (cmds.flatMap command).length ≤ c.sent
  · left
    rw [whole_all h1, List.take_length]
    have : ¬ _ := fun h2 => h ⟨h1, h2⟩
    omega
  · right; exact whole_lt (by omega)

theorem u64_fmtNat {n : Nat} (h : n < 2 ^ 64) : u64 (fmtNat n) = some n := by
  unfold u64
  dsimp only
  rw [ofDigitChars_fmtNat, if_pos ⟨rfl, h⟩]

theorem dash_fmtNat (n : Nat) : '-' ∉ fmtNat n := fun h => absurd (isDigit_fmtNat h) (by decide)

theorem notDash {s : Str} (h : '-' ∉ s) : ∀ c ∈ s, decide (c ≠ '-') = true := by
  intro c hc
  simp only [decide_eq_true_eq]; rintro rfl; exact h hc

theorem parseId_fmtNat {n : Nat} (h : n < 2 ^ 64) : parseId (fmtNat n) = some (n, 0) := by
  unfold parseId
  have e := List.dropWhile_append_of_pos (l₂ := []) (notDash (dash_fmtNat n))
  rw [List.append_nil] at e
  rw [e]
  simp [u64_fmtNat h]

theorem parseId_fmt {i : RId} (h1 : i.1 < 2 ^ 64) (h2 : i.2 < 2 ^ 64) : parseId i.fmt = some i := by
  have e : i.fmt = fmtNat i.1 ++ '-' :: fmtNat i.2 := rfl
  unfold parseId
  rw [e, List.dropWhile_append_of_pos (notDash (dash_fmtNat _)), List.takeWhile_append_of_pos (notDash (dash_fmtNat _))]
  simp [u64_fmtNat h1, u64_fmtNat h2]

theorem u64_nil : u64 [] = none := by decide

theorem parseId_neg (k : Nat) : parseId (fmtInt (Int.negSucc k)) = none := by
  have e : fmtInt (Int.negSucc k) = '-' :: fmtNat (k + 1) := rfl
  unfold parseId
  rw [e]
  simp [u64_nil]

theorem exec_xadd {s : Stream} {nowMs : Nat} {f : List Str} (h0 : f ≠ []) (h1 : f.length % 2 = 0) :
    exec s nowMs (xaddArgs f) = (s.xadd nowMs f, .str (nextId s.last nowMs).fmt) := by
  unfold xaddArgs exec
  dsimp only
  rw [if_pos rfl]
  unfold xadd
  dsimp only
  rw [if_neg (by simp), if_neg (by push Not; exact ⟨h0, by omega⟩)]

/-- XTRIM as in `execTrim`. -/
theorem exec_xtrim (s : Stream) (nowMs : Nat) {thr : Int} (h : thr < 2 ^ 64) :
    ((exec s nowMs (xtrimArgs thr)).1, (exec s nowMs (xtrimArgs thr)).2.toReply) =
      (if thr < 0 then (s, .err "ERR Invalid stream ID specified as stream command argument".toList)
       else
        let s' := s.xtrim thr.toNat
        (s', Reply.int ((s.entries.length : Int) - s'.entries.length))) := by
  have e : exec s nowMs (xtrimArgs thr) = xtrim s [key, "MINID".toList, fmtInt thr] := by
    unfold xtrimArgs exec
    dsimp only
    rw [if_neg (by decide), if_pos rfl]
  rw [e]
  unfold xtrim
  dsimp only
  rw [if_neg (by simp)]
  cases thr with
  | negSucc k => rw [parseId_neg, if_pos (by omega)]; rfl
  | ofNat k =>
    rw [show fmtInt (Int.ofNat k) = fmtNat k from rfl, parseId_fmtNat (by simp only [Int.ofNat_eq_natCast] at h; omega),
      if_neg (by simp)]
    have : (fun e : RId × List Str => decide (¬ RId.lt e.1 (k, 0))) = fun e => decide (k ≤ e.1.1) := by
      funext e
      simp only [RId.lt, Nat.not_lt_zero, and_false, or_false, Nat.not_lt]
    simp only [this, Rep.toReply]
    rfl

/-- Fields that XADD accepts. -/
def Pairs (f : List Str) : Prop := f ≠ [] ∧ f.length % 2 = 0

theorem redisCmds_pairs (us : List StateUpdate) : ∀ f ∈ redisCmds us, Pairs f := by
  intro f hf
  obtain ⟨u, hu⟩ := redisCmds_good us f hf
  unfold redisFields at hu
  cases hc : u.cmd <;> simp only [hc] at hu
  · split at hu <;> cases hu; exact ⟨by simp, by simp⟩
  · split at hu <;> cases hu; exact ⟨by simp, by simp⟩
  · split at hu <;> cases hu; exact ⟨by simp, by simp⟩
  · split at hu
    · cases hu
    · split at hu <;> cases hu; exact ⟨by simp, by simp⟩
  · cases hu

theorem execs_xadd {s : Stream} {fs : List (List Str)} (hp : ∀ f ∈ fs, Pairs f) {es : List CmdEnv}
    (hl : fs.length ≤ es.length) (rest : List (List Str)) :
    (execs s (fs.map xaddArgs ++ rest) es).1 = (execs (execCmds s fs es).1 rest (es.drop fs.length)).1 ∧
    (execs s (fs.map xaddArgs ++ rest) es).2.map Rep.toReply =
      (execCmds s fs es).2 ++ (execs (execCmds s fs es).1 rest (es.drop fs.length)).2.map Rep.toReply := by
  induction fs generalizing s es with
  | nil => cases es <;> simp [execCmds]
  | cons f fs ih =>
    cases es with
    | nil => simp at hl
    | cons e es =>
      have hl : fs.length ≤ es.length := by simpa using hl
      have hf := hp f (by simp)
      simp only [List.map_cons, List.cons_append, List.length_cons, List.drop_succ_cons]
      rw [execs, execCmds]
      cases hfail : e.fail with
      | some m =>
        obtain ⟨h1, h2⟩ := ih (s := s) (fun f hf => hp f (by simp [hf])) hl
        simp only [List.map_cons, h1, h2, List.cons_append]
        exact ⟨trivial, rfl⟩
      | none =>
        obtain ⟨h1, h2⟩ := ih (s := s.xadd e.nowMs f) (fun f hf => hp f (by simp [hf])) hl
        simp only [List.map_cons, exec_xadd hf.1 hf.2, h1, h2, List.cons_append]
        exact ⟨trivial, rfl⟩

theorem execCmds_drop_env {s : Stream} {fs : List (List Str)} {es : List CmdEnv} (h : fs.length ≤ es.length) :
    (execCmds s fs es).2.length = fs.length := by
  induction fs generalizing s es with
  | nil => cases es <;> rfl
  | cons f fs ih =>
    cases es with
    | nil => simp at h
    | cons e es =>
      have h : fs.length ≤ es.length := by simpa using h
      rw [execCmds]
      split <;> simp [ih h]

/-- The batch, with the trim at its end. -/
theorem execs_batch {cfg : Config} {nowS : Int} (ht : nowS - cfg.ttl < 2 ^ 64) {s : Stream} {us : List StateUpdate}
    {es : List CmdEnv} (hl : (redisCmds us).length < es.length) :
    let r := execCmds s (redisCmds us) es
    let fail := (es[(redisCmds us).length]?).bind (·.fail)
    (execs s (batch cfg nowS us) es).1 = (execTrim cfg nowS fail r.1).1 ∧
    (execs s (batch cfg nowS us) es).2.dropLast.map Rep.toReply = r.2 := by
  dsimp only
  obtain ⟨h1, h2⟩ := execs_xadd (s := s) (redisCmds_pairs us) (Nat.le_of_lt hl) [xtrimArgs (nowS - cfg.ttl)]
  unfold batch
  rw [h1, List.map_dropLast, h2]
  have hd : es.drop (redisCmds us).length = es[(redisCmds us).length] :: es.drop ((redisCmds us).length + 1) :=
    List.drop_eq_getElem_cons hl
  rw [hd, List.getElem?_eq_getElem hl, Option.bind_some]
  generalize es[(redisCmds us).length] = e
  rw [execs]
  cases hf : e.fail with
  | some m => simp [execs, execTrim]
  | none =>
    have := exec_xtrim (execCmds s (redisCmds us) es).1 e.nowMs ht
    simp only [execs, execTrim]
    constructor
    · have h := congrArg Prod.fst this
      simp only at h
      rw [h]
    · simp

/-- The first `k` commands of the batch. -/
theorem execs_part {cfg : Config} {nowS : Int} (ht : nowS - cfg.ttl < 2 ^ 64) {s : Stream} {us : List StateUpdate}
    {es : List CmdEnv} (hl : (redisCmds us).length < es.length) (k : Nat) (lost : Option Nat) :
    (execs s ((batch cfg nowS us).take k) es).1 =
      execPart cfg ⟨es, nowS, (es[(redisCmds us).length]?).bind (·.fail), lost⟩ s us k := by
  unfold execPart
  dsimp only
  split
  · rename_i hk
    have hle : (batch cfg nowS us).length ≤ k := by simp [batch]; omega
    rw [List.take_of_length_le hle, (execs_batch ht hl).1, List.take_of_length_le (by omega)]
  · rename_i hk
    have e : (batch cfg nowS us).take k = ((redisCmds us).take k).map xaddArgs ++ [] := by
      unfold batch
      rw [List.take_append_of_le_length (by simp; omega), List.map_take, List.append_nil]
    rw [e, (execs_xadd (fun f hf => redisCmds_pairs us f (List.mem_of_mem_take hf))
      (by rw [List.length_take]; omega) []).1]
    cases es.drop _ <;> rfl

/-! ## Connections -/

theorem authCmds_eq {user password : Str} (hu : user ≠ []) (hp : password ≠ []) :
    authCmds user password = [["AUTH".toList, user, password]] := by
  unfold authCmds; rw [if_neg hp, if_neg hu]

/-- Log-in succeeds if it gets through both ways and Redis does not refuse it. -/
theorem dial_iff {user password : Str} (hu : user ≠ []) (hp : password ≠ []) (hu' : user.length ≤ maxBulk)
    (hp' : password.length ≤ maxBulk) {acl : Acl} (ho : ∀ m, acl user password = some m → '\n' ∉ m) {c : Cut} :
    dial user password acl c = true ↔
      acl user password = none ∧ (command ["AUTH".toList, user, password]).length ≤ c.sent ∧ 5 ≤ c.back := by
  have hf : ∀ a ∈ [["AUTH".toList, user, password]], Fits a := by
    intro a ha
    simp only [List.mem_singleton] at ha; subst ha
    refine ⟨by simp, by simp, ?_⟩
    intro x hx
    simp only [List.mem_cons, List.not_mem_nil, or_false] at hx
    rcases hx with rfl | rfl | rfl
    · decide
    · exact hu'
    · exact hp'
  unfold dial
  dsimp only
  rw [authCmds_eq hu hp, cmdsOf_take hf]
  have hk : ((acl user password).map Rep.err).getD (.status "OK".toList) = login acl ["AUTH".toList, user, password] := by
    simp [login]
  rcases Nat.lt_or_ge c.sent (command ["AUTH".toList, user, password]).length with h | h
  · rw [whole, if_pos h]
    have : replies 1 ((encodes []).take c.back) = none := replies_short (l := []) (by simp) (by simp) (by simp)
    simp only [List.take_zero, List.map_nil, List.length_singleton, this]
    constructor
    · intro hx; cases hx
    · intro hx; omega
  · rw [whole, if_neg (by omega), whole]
    simp only [List.take_succ_cons, List.take_nil, List.map_cons, List.map_nil, List.length_singleton, ← hk]
    cases ha : acl user password with
    | none =>
      simp only [Option.map_none, Option.getD_none]
      have ok : ∀ q ∈ [Rep.status "OK".toList], q.Ok := by
        intro q hq; simp only [List.mem_singleton] at hq; subst hq; exact .status (by decide)
      have hl : (encodes [Rep.status "OK".toList]).length = 5 := by decide
      rcases Nat.lt_or_ge c.back 5 with hb | hb
      · have := replies_short ok (n := 1) (b := c.back) (by simp) (.inl (by omega))
        rw [this]
        constructor
        · intro hx; cases hx
        · intro hx; omega
      · have := replies_all ok (b := c.back) (by omega)
        rw [List.length_singleton] at this
        rw [this]
        exact ⟨fun _ => ⟨trivial, h, hb⟩, fun _ => by simp [Rep.isErr]⟩
    | some m =>
      simp only [Option.map_some, Option.getD_some]
      have ok : ∀ q ∈ [Rep.err m], q.Ok := by
        intro q hq; simp only [List.mem_singleton] at hq; subst hq; exact .err (ho m ha)
      rcases Nat.lt_or_ge c.back (encodes [Rep.err m]).length with hb | hb
      · have := replies_short ok (n := 1) (b := c.back) (by simp) (.inl (by omega))
        rw [this]; simp
      · have := replies_all ok (b := c.back) (by omega)
        rw [List.length_singleton] at this
        rw [this]
        simp [Rep.isErr]

theorem batch_fits {cfg : Config} {nowS : Int} {us : List StateUpdate}
    (hs : ∀ u ∈ us, u.key.length ≤ maxBulk ∧ u.value.length ≤ maxBulk) (hn : (fmtInt (nowS - cfg.ttl)).length ≤ maxBulk) :
    ∀ a ∈ batch cfg nowS us, Fits a := by
  intro a ha
  unfold batch at ha
  have hb : ∀ x ∈ ["XADD".toList, key, ['*'], tyTicket, tyActivate, tyDeactivate, tyAssign, tyConnection, "XTRIM".toList, "MINID".toList],
      x.length ≤ maxBulk := by decide
  rcases List.mem_append.1 ha with ha | ha
  · obtain ⟨f, hf, rfl⟩ := List.mem_map.1 ha
    obtain ⟨u, hu, hfu⟩ := List.mem_filterMap.1 hf
    have hsu := hs u hu
    have hlen : f.length ≤ 4 ∧ ∀ x ∈ f, x.length ≤ maxBulk := by
      unfold redisFields at hfu
      cases hc : u.cmd <;> simp only [hc] at hfu
      · by_cases h : u.value = []
        · simp [h] at hfu
        · simp only [if_neg h, Option.some.injEq] at hfu; subst hfu
          refine ⟨by simp, fun x hx => ?_⟩
          simp only [List.mem_cons, List.not_mem_nil, or_false] at hx
          rcases hx with rfl | rfl
          · exact hb _ (by simp)
          · exact hsu.2
      · by_cases h : u.key = []
        · simp [h] at hfu
        · simp only [if_neg h, Option.some.injEq] at hfu; subst hfu
          refine ⟨by simp, fun x hx => ?_⟩
          simp only [List.mem_cons, List.not_mem_nil, or_false] at hx
          rcases hx with rfl | rfl
          · exact hb _ (by simp)
          · exact hsu.1
      · by_cases h : u.key = []
        · simp [h] at hfu
        · simp only [if_neg h, Option.some.injEq] at hfu; subst hfu
          refine ⟨by simp, fun x hx => ?_⟩
          simp only [List.mem_cons, List.not_mem_nil, or_false] at hx
          rcases hx with rfl | rfl
          · exact hb _ (by simp)
          · exact hsu.1
      · by_cases h : u.key = []
        · simp [h] at hfu
        · by_cases h2 : u.value = []
          · simp [h, h2] at hfu
          · simp only [if_neg h, if_neg h2, Option.some.injEq] at hfu; subst hfu
            refine ⟨by simp, fun x hx => ?_⟩
            simp only [List.mem_cons, List.not_mem_nil, or_false] at hx
            rcases hx with rfl | rfl | rfl | rfl
            · exact hb _ (by simp)
            · exact hsu.1
            · exact hb _ (by simp)
            · exact hsu.2
      · cases hfu
    refine ⟨by simp [xaddArgs], by simp [xaddArgs]; omega, ?_⟩
    intro x hx
    unfold xaddArgs at hx
    simp only [List.mem_cons] at hx
    rcases hx with rfl | rfl | rfl | hx
    · exact hb _ (by simp)
    · exact hb _ (by simp)
    · exact hb _ (by simp)
    · exact hlen.2 x hx
  · simp only [List.mem_singleton] at ha; subst ha
    refine ⟨by simp [xtrimArgs], by simp [xtrimArgs], ?_⟩
    intro x hx
    unfold xtrimArgs at hx
    simp only [List.mem_cons, List.not_mem_nil, or_false] at hx
    rcases hx with rfl | rfl | rfl | rfl
    · exact hb _ (by simp)
    · exact hb _ (by simp)
    · exact hb _ (by simp)
    · exact hn

/-! ## Polls -/

theorem texts_strs (l : List Str) : (Rep.arr (l.map .str)).texts = some l := by
  unfold Rep.texts
  dsimp only
  induction l with
  | nil => rfl
  | cons a l ih =>
    rw [List.map_cons, List.mapM_cons, ih]
    rfl

theorem entry_rep (e : RId × List Str) :
    entry (.arr [.str e.1.fmt, .arr (e.2.map .str)]) = (decodeEntry e).map fun u => (e.1.fmt, u) := by
  unfold entry
  simp only [Rep.asArr, Option.bind_some, List.getElem?_cons_zero, List.getElem?_cons_succ, texts_strs, Rep.text]
  rfl

theorem mapM_pair {α β γ : Type} (d : α → Option β) (g : α → γ) (l : List α) :
    l.mapM (fun e => (d e).map fun u => (g e, u)) = (l.mapM d).map fun us => (l.map g).zip us := by
  induction l with
  | nil => rfl
  | cons a l ih =>
    rw [List.mapM_cons, List.mapM_cons, ih]
    cases d a with
    | none => rfl
    | some b =>
      cases l.mapM d with
      | none => rfl
      | some us => rfl

theorem mapM_length {α β : Type} {d : α → Option β} {l : List α} {us : List β} (h : l.mapM d = some us) : us.length = l.length := by
  induction l generalizing us with
  | nil => cases h; rfl
  | cons a l ih =>
    rw [List.mapM_cons] at h
    cases hd : d a with
    | none => rw [hd] at h; cases h
    | some b =>
      cases hm : l.mapM d with
      | none => rw [hd, hm] at h; cases h
      | some vs =>
        rw [hd, hm] at h
        cases h
        simp [ih hm]

theorem take_entries (r : Str) (es : List (RId × List Str)) :
    take r (some (entriesRep es)) = (es.mapM decodeEntry).map fun us => (us, (es.getLast?.map fun e => e.1.fmt).getD r) := by
  unfold entriesRep
  split
  · rename_i h; subst h; rfl
  · rename_i h
    unfold take
    simp only [Rep.asArr, Option.bind_some, List.getElem?_cons_zero, List.getElem?_cons_succ, List.mapM_map]
    have e : (fun e : RId × List Str => entry (.arr [.str e.1.fmt, .arr (e.2.map .str)])) =
        fun e => (decodeEntry e).map fun u => (e.1.fmt, u) := funext entry_rep
    rw [show (entry ∘ fun e : RId × List Str => Rep.arr [.str e.1.fmt, .arr (e.2.map .str)]) =
        fun e => (decodeEntry e).map fun u => (e.1.fmt, u) from e, mapM_pair]
    cases hm : es.mapM decodeEntry with
    | none => rfl
    | some us =>
      have hl := mapM_length hm
      simp only [Option.map_some]
      congr 2
      · rw [List.map_snd_zip]; simp; omega
      · congr 1
        rw [← List.getLast?_map, List.map_fst_zip (by simp; omega), List.getLast?_map]

theorem take_refused (r m : Str) : take r (some (.err m)) = some ([], r) := rfl

theorem xreadCmd_fits {env : GoMap Str} {i : Str} (hi : i.length ≤ maxBulk)
    (h1 : (Conf.getString env "OM_CACHE_IN_MAX_UPDATES_PER_POLL".toList).length ≤ maxBulk)
    (h2 : (Conf.getString env "OM_CACHE_IN_WAIT_TIMEOUT_MS".toList).length ≤ maxBulk) : Fits (xreadCmd env i) := by
  have hb : ∀ x ∈ ["XREAD".toList, "COUNT".toList, "BLOCK".toList, "STREAMS".toList, key], x.length ≤ maxBulk := by decide
  unfold xreadCmd
  refine ⟨by simp, by simp, ?_⟩
  intro x hx
  simp only [List.mem_cons, List.not_mem_nil, or_false] at hx
  rcases hx with rfl | rfl | rfl | rfl | rfl | rfl | rfl | rfl
  · exact hb _ (by simp)
  · exact hb _ (by simp)
  · exact h1
  · exact hb _ (by simp)
  · exact h2
  · exact hb _ (by simp)
  · exact hb _ (by simp)
  · exact hi

/-- The answer to a poll that is not refused. -/
theorem take_xread {env : GoMap Str} {s : Stream} {i : RId} (h1 : i.1 < 2 ^ 64) (h2 : i.2 < 2 ^ 64) (nowMs : Nat) :
    take i.fmt (some (exec s nowMs (xreadCmd env i.fmt)).2) =
      (Conf.configuredPoll env s i).map fun p => (p.1, p.2.fmt) := by
  have e : exec s nowMs (xreadCmd env i.fmt) =
      (s, xread s ["COUNT".toList, Conf.getString env "OM_CACHE_IN_MAX_UPDATES_PER_POLL".toList,
        "BLOCK".toList, Conf.getString env "OM_CACHE_IN_WAIT_TIMEOUT_MS".toList, "STREAMS".toList, key, i.fmt]) := by
    unfold xreadCmd exec
    dsimp only
    rw [if_neg (by decide), if_neg (by decide), if_pos rfl]
  rw [e]
  unfold xread Conf.configuredPoll Conf.xreadArgs
  dsimp only
  rw [if_neg (by simp), parseId_fmt h1 h2]
  cases hc : Conf.redisInt (Conf.getString env "OM_CACHE_IN_MAX_UPDATES_PER_POLL".toList) with
  | none => rfl
  | some n =>
    cases hb : Conf.redisInt (Conf.getString env "OM_CACHE_IN_WAIT_TIMEOUT_MS".toList) with
    | none => rfl
    | some b =>
      dsimp only
      split
      · rfl
      · rw [take_entries]
        unfold pollUpdates
        dsimp only
        rw [Option.map_map]
        congr 1
        funext us
        simp only [Function.comp]
        congr 1
        cases (s.xread n.toNat i).getLast? <;> rfl

end OM.Resp
