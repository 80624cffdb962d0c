import Verif.Lemmas.Serve
import Verif.Props.Mmf
import Verif.Props.Relay
/-!
# Properties C99-C103: addresses, labels, match ids, ports and per-call metrics
-/
namespace OM.Props
open OM.Serve OM.Spec OM.Mmf

/-! ## C99 -/

/-- Where a spec says its function is: "host:port", or just "host" without a port. -/
def Located (s : MmfSpec) (a : Str) : Prop :=
  (0 < s.port ∧ HostPort a s.host s.port) ∨ (s.port ≤ 0 ∧ a = s.host)

/-- The full claim: for every spec of a request, what the function at its place answers is
what om-core relays. -/
def C99_statement : Prop :=
  ∀ (world : Str → Relay.Mmf) (specs : List MmfSpec) (i : Nat) (s : MmfSpec), specs[i]? = some s →
    ∃ a, Located s a ∧ (callees world specs)[i]? = some (world a)

theorem located_mmfHost (s : MmfSpec) : Located s (mmfHost s) := by
  unfold Located mmfHost
  split
  · rename_i hp
    obtain ⟨n, hn⟩ := Int.eq_ofNat_of_zero_le (Int.le_of_lt hp)
    left
    refine ⟨hp, fmtInt s.port, rfl, ?_⟩
    have hf : fmtInt s.port = fmtNat n := by rw [hn]; rfl
    rw [hf]
    obtain ⟨h1, h2⟩ := decInt_fmtNat n
    exact ⟨h1, Watch.fmtNat_head (by omega), by rw [h2, hn]⟩
  · right; exact ⟨by omega, rfl⟩

/-- A function that would return one match, wherever it is called. -/
def oneDuel : Relay.Mmf := ⟨true, [duel "m1" "1-1" "2-1"], true⟩

/-- A spec that leaves out the type, messages.proto:179-181. -/
def untyped : MmfSpec := ⟨"f".toList, "localhost".toList, 8081, 0⟩

/-- **C99 is false of the code**: a spec that leaves the type at its default is one of type
REST, which is not implemented.  The function is not called; the call returns OK without a
match. -/
theorem C99_every_function_is_called_refuted : ¬ C99_statement ∧
    (∃ ls s, Relay.run false (callees (fun _ => oneDuel) [untyped]) (Relay.init (callees (fun _ => oneDuel) [untyped])) ls =
      some s ∧ Relay.status s = some none ∧ s.out = []) := by
  constructor
  · intro h
    obtain ⟨a, -, ha⟩ := h (fun _ => oneDuel) [untyped] 0 untyped rfl
    have : (callees (fun _ => oneDuel) [untyped])[0]? = some ⟨false, [], false⟩ := by decide
    rw [this] at ha
    exact absurd (congrArg Relay.Mmf.starts (Option.some.inj ha)) (by simp [oneDuel])
  · have h1 : (Relay.run false (callees (fun _ => oneDuel) [untyped]) (Relay.init (callees (fun _ => oneDuel) [untyped]))
      [.mainClose, .mainReturn]).map (fun s => (Relay.status s, s.out)) = some (some none, []) := by decide +kernel
    obtain ⟨s, hs, he⟩ := Option.map_eq_some_iff.1 h1
    simp only [Prod.mk.injEq] at he
    exact ⟨_, s, hs, he.1, he.2⟩

/-- **C99 (what holds).** Partial: full C99 has no condition on the type.  Every spec whose
type is not REST is called at its own place, each as often as it is listed; a spec of type
REST is not called. -/
theorem C99_every_function_is_called_partial (world : Str → Relay.Mmf) (specs : List MmfSpec) :
    (callees world specs).length = specs.length ∧
    ∀ (i : Nat) (s : MmfSpec), specs[i]? = some s →
      (s.type ≠ 0 → ∃ a, Located s a ∧ (callees world specs)[i]? = some (world a)) ∧
      (s.type = 0 → (callees world specs)[i]? = some ⟨false, [], false⟩) := by
  refine ⟨by simp [callees], fun i s hs => ?_⟩
  have hi : (callees world specs)[i]? = some (callee world s) := by simp [callees, hs]
  rw [hi]
  constructor
  · intro ht
    exact ⟨mmfHost s, located_mmfHost s, by simp [callee, dialled, typeRest, ht]⟩
  · intro ht
    simp [callee, dialled, typeRest, ht]

theorem hostPort_tail {c : Char} {ds : Str} (h : Decimals ds) (hc : c ∈ ds) : c ≠ ':' := by
  rintro rfl
  have := (decimals_iff.1 h).2 _ hc
  revert this; decide

theorem after_last_colon {a b x y : Str} (hx : ':' ∉ x) (hy : ':' ∉ y) (h : a ++ ':' :: x = b ++ ':' :: y) :
    a = b ∧ x = y := by
  rcases List.append_eq_append_iff.1 h with ⟨c, h1, h2⟩ | ⟨c, h1, h2⟩
  · cases c with
    | nil => simp at h1 h2; exact ⟨h1.symm, h2⟩
    | cons d c =>
      simp only [List.cons_append, List.cons.injEq] at h2
      exact absurd (by rw [h2.2]; simp) hx
  · cases c with
    | nil => simp at h1 h2; exact ⟨h1, h2.symm⟩
    | cons d c =>
      simp only [List.cons_append, List.cons.injEq] at h2
      exact absurd (by rw [h2.2]; simp) hy

/-- **C99.** Specs with a port are called at the same address only if they name the same host
and port. -/
theorem C99_places_are_distinct (s t : MmfSpec) (hs : 0 < s.port) (ht : 0 < t.port) (a : Str)
    (h1 : dialled s = some a) (h2 : dialled t = some a) : s.host = t.host ∧ s.port = t.port := by
  have key : ∀ u : MmfSpec, 0 < u.port → dialled u = some a → HostPort a u.host u.port := by
    intro u hu h
    unfold dialled at h
    split at h
    · cases h
    · obtain rfl := Option.some.inj h
      rcases located_mmfHost u with h | h
      · exact h.2
      · omega
  obtain ⟨ds, e1, d1, -, v1⟩ := key s hs h1
  obtain ⟨es, e2, d2, -, v2⟩ := key t ht h2
  obtain ⟨h3, rfl⟩ := after_last_colon (fun h => hostPort_tail d1 h rfl) (fun h => hostPort_tail d2 h rfl) (e1.symm.trans e2)
  exact ⟨h3, v1.symm.trans v2⟩

/-- The example's specs are called where the example's servers listen, each function by its
own spec. -/
example : exampleSpecs.map dialled = [some "localhost:8081".toList, some "localhost:8082".toList, some "localhost:8083".toList] ∧
    exampleSpecs.map dialled = exampleServers.map (fun e => some ("localhost".toList ++ e.1)) ∧
    dialled { soloSpec with port := 0, host := "mmf.example.com:443".toList } = some "mmf.example.com:443".toList := by
  decide +kernel

/-! ## C100 -/

/-- The labels every match carries: its score, the function and the profile it is for. -/
def HasLabels (name profile : Str) (m : Match) : Prop :=
  Labelled m.extensions "score" (HoldsInt32 · 100) ∧ Labelled m.extensions "mmfName" (HoldsString · name) ∧
    Labelled m.extensions "profileName" (HoldsString · profile)

theorem hasLabels {name profile : Str} {m : Match} {more : GoMap AnyPb} (h : m.extensions = extensionsFor name profile ++ more) :
    HasLabels name profile m := by
  unfold HasLabels Labelled
  rw [h]
  exact ⟨⟨_, rfl, holdsInt32 100⟩, ⟨_, rfl, holdsString name⟩, ⟨_, rfl, holdsString profile⟩⟩

/-- **C100.** Every match of the three functions says which function made it, for which profile,
with which score and when: the battle-royale and 1v1 functions note the time in the roster's
extension "CreationTime", the team shooter in the match's extension "creationTime". -/
theorem C100_labels (ok : Nat → Bool) (t : Str) (times : Nat → Str) (now : Nat → Timestamp) (p : Profile) (ord : GoMap Pool) :
    (∀ r, soloduel ok t now ord (some p) = some r → ∀ (n : Nat) (m : Match), r.sent[n]? = some m →
      HasLabels "a-simple-1v1-matchfunction".toList p.name m ∧
      ∀ e ∈ m.rosters, Labelled e.2.extensions "CreationTime" (HoldsTime · (now n))) ∧
    (∀ r, battleroyale ok t now (some p) = some r → ∀ (n : Nat) (m : Match), r.sent[n]? = some m →
      HasLabels "battle-royale".toList p.name m ∧
      ∀ e ∈ m.rosters, Labelled e.2.extensions "CreationTime" (HoldsTime · (now n))) ∧
    (∀ r, teamshooter ok times now (some p) = some r → ∀ (n : Nat) (m : Match), r.sent[n]? = some m →
      HasLabels "team-shooter-5v5-matchfunction".toList p.name m ∧
      Labelled m.extensions "creationTime" (HoldsTime · (now n))) := by
  have key : ∀ {k n : Nat} {f : Nat → Match} {m : Match}, ((List.range k).map f)[n]? = some m → m = f n := by
    intro k n f m h
    simp only [List.getElem?_map, Option.map_eq_some_iff] at h
    obtain ⟨a, h1, rfl⟩ := h
    rw [List.getElem?_range (by
      rcases Nat.lt_or_ge n k with h | h
      · exact h
      · rw [List.getElem?_eq_none (by simpa using h)] at h1; cases h1)] at h1
    rw [Option.some.inj h1]
  refine ⟨fun r hr n m hm => ?_, fun r hr n m hm => ?_, fun r hr n m hm => ?_⟩
  · obtain ⟨r', k, h1, -, h3⟩ := solo_run ok t now ord p
    obtain rfl : r' = r := Option.some.inj (h1.symm.trans hr)
    rw [h3] at hm
    rw [key hm]
    refine ⟨hasLabels (more := []) (by rw [List.append_nil]; rfl), fun e he => ?_⟩
    obtain rfl := List.mem_singleton.1 he
    exact ⟨_, rfl, holdsTime _⟩
  · obtain ⟨r', k, h1, -, h3⟩ := br_run ok t now p
    obtain rfl : r' = r := Option.some.inj (h1.symm.trans hr)
    rw [h3] at hm
    rw [key hm]
    refine ⟨hasLabels (more := []) (by rw [List.append_nil]; rfl), fun e he => ?_⟩
    obtain rfl := List.mem_singleton.1 he
    exact ⟨_, rfl, holdsTime _⟩
  · obtain ⟨r', k, h1, -, h3⟩ := ts_run ok times now p
    obtain rfl : r' = r := Option.some.inj (h1.symm.trans hr)
    rw [h3] at hm
    rw [key hm]
    exact ⟨hasLabels (more := [("creationTime".toList, anyTime (now n))]) rfl, ⟨_, rfl, holdsTime _⟩⟩

example : (teamshooter (fun _ => true) (fun _ => []) (fun _ => ⟨300, 5⟩) (some shooterProfile)).map
    (fun r => r.sent.map fun m => (m.extensions.load "profileName".toList).map (·.value.drop 2) ) =
    some [some shooterProfile.name, some shooterProfile.name] ∧ shooterProfile.name ≠ [] ∧
    (anyTime ⟨300, 5⟩).value.map Char.toNat = [8, 172, 2, 16, 5] := by decide +kernel

/-! ## C101 -/

/-- A match that one of the three functions sends in some run, with the function's name and
the clock text it read for the match. -/
def SentBy (name clock : Str) (m : Match) : Prop :=
  ∃ (ok : Nat → Bool) (now : Nat → Timestamp) (p : Profile) (n : Nat),
    (∃ ord r, name = soloName ∧ soloduel ok clock now ord (some p) = some r ∧ r.sent[n]? = some m) ∨
    (∃ r, name = brName ∧ battleroyale ok clock now (some p) = some r ∧ r.sent[n]? = some m) ∨
    (∃ times r, name = tsName ∧ times n = clock ∧ teamshooter ok times now (some p) = some r ∧ r.sent[n]? = some m)

theorem sentBy_id {name clock : Str} {m : Match} (h : SentBy name clock m) :
    (name = soloName ∨ name = brName ∨ name = tsName) ∧ ∃ n, m.id = matchId name clock n := by
  have key : ∀ {k n : Nat} {f : Nat → Match} {m : Match}, ((List.range k).map f)[n]? = some m → m = f n := by
    intro k n f m h
    simp only [List.getElem?_map, Option.map_eq_some_iff] at h
    obtain ⟨a, h1, rfl⟩ := h
    rw [List.getElem?_range (by
      rcases Nat.lt_or_ge n k with h | h
      · exact h
      · rw [List.getElem?_eq_none (by simpa using h)] at h1; cases h1)] at h1
    rw [Option.some.inj h1]
  obtain ⟨ok, now, p, n, ⟨ord, r, rfl, hr, hm⟩ | ⟨r, rfl, hr, hm⟩ | ⟨times, r, rfl, rfl, hr, hm⟩⟩ := h
  · obtain ⟨r', k, h1, -, h3⟩ := solo_run ok clock now ord p
    obtain rfl : r' = r := Option.some.inj (h1.symm.trans hr)
    rw [h3] at hm
    exact ⟨.inl rfl, n, by rw [key hm]⟩
  · obtain ⟨r', k, h1, -, h3⟩ := br_run ok clock now p
    obtain rfl : r' = r := Option.some.inj (h1.symm.trans hr)
    rw [h3] at hm
    exact ⟨.inr (.inl rfl), n, by rw [key hm]⟩
  · obtain ⟨r', k, h1, -, h3⟩ := ts_run ok times now p
    obtain rfl : r' = r := Option.some.inj (h1.symm.trans hr)
    rw [h3] at hm
    exact ⟨.inr (.inr rfl), n, by rw [key hm]⟩

/-- The full claim: matches that differ have different ids. -/
def C101_statement : Prop :=
  ∀ (name clock name' clock' : Str) (m m' : Match), SentBy name clock m → SentBy name' clock' m' → m.id = m'.id → m = m'

/-- Two profiles with one pool of two tickets each. -/
def labelledProfile (name : String) (a b : String) : Profile :=
  ⟨name.toList, [("all".toList, ⟨"all".toList, [], [], [], none, some ⟨[], none, [tk a, tk b], []⟩, []⟩)], []⟩

/-- The first match of 1v1 for a profile. -/
def firstDuel (p : Profile) (clock : Str) : Option Match :=
  (soloduel (fun _ => true) clock (fun _ => ⟨0, 0⟩) p.pools (some p)).bind (·.sent[0]?)

theorem sentBy_firstDuel {p : Profile} {clock : Str} {m : Match} (h : firstDuel p clock = some m) : SentBy soloName clock m := by
  unfold firstDuel at h
  obtain ⟨r, h1, h2⟩ := Option.bind_eq_some_iff.1 h
  exact ⟨_, _, p, 0, .inl ⟨_, r, rfl, h1, h2⟩⟩

/-- **C101 is false of the code**: the id does not name the profile, and the clock is read in
hundredths of a second, so two runs of a function in the same hundredth of a second, for two
profiles, give their first matches the same id. -/
theorem C101_ids_across_runs_refuted : ¬ C101_statement := by
  intro h
  have h1 : (firstDuel (labelledProfile "europe" "1-0" "2-0") "2024-05-01T12:00:00.00".toList).map (·.id) =
      (firstDuel (labelledProfile "asia" "3-0" "4-0") "2024-05-01T12:00:00.00".toList).map (·.id) := by decide +kernel
  have h2 : firstDuel (labelledProfile "europe" "1-0" "2-0") "2024-05-01T12:00:00.00".toList ≠
      firstDuel (labelledProfile "asia" "3-0" "4-0") "2024-05-01T12:00:00.00".toList := by decide +kernel
  have h3 : (firstDuel (labelledProfile "europe" "1-0" "2-0") "2024-05-01T12:00:00.00".toList).isSome := by decide +kernel
  obtain ⟨m, hm⟩ := Option.isSome_iff_exists.1 h3
  cases hm' : firstDuel (labelledProfile "asia" "3-0" "4-0") "2024-05-01T12:00:00.00".toList with
  | none => rw [hm, hm'] at h1; cases h1
  | some m' =>
    rw [hm, hm'] at h1
    have := h _ _ _ _ m m' (sentBy_firstDuel hm) (sentBy_firstDuel hm') (Option.some.inj h1)
    rw [hm, hm', this] at h2
    exact h2 rfl

/-- **C101 (what holds).** Partial: full C101 concludes `m = m'`.  Matches with the same id come
from the same function and the same clock text; clock texts have 22 characters. -/
theorem C101_ids_across_runs_partial (name clock name' clock' : Str) (m m' : Match)
    (h : SentBy name clock m) (h' : SentBy name' clock' m') (hc : clock.length = 22) (hc' : clock'.length = 22)
    (he : m.id = m'.id) : name = name' ∧ clock = clock' := by
  obtain ⟨hn, n, e⟩ := sentBy_id h
  obtain ⟨hn', n', e'⟩ := sentBy_id h'
  rw [e, e'] at he
  unfold matchId at he
  simp only [List.append_assoc] at he
  have h0 := List.append_cancel_left he
  have hname : name = name' := by
    have h8 := congrArg List.head? h0
    simp only [List.head?_append] at h8
    have e1 : soloName.head? = some 'a' := by decide
    have e2 : brName.head? = some 'b' := by decide
    have e3 : tsName.head? = some 't' := by decide
    rcases hn with rfl | rfl | rfl <;> rcases hn' with rfl | rfl | rfl <;>
      first
        | rfl
        | (simp only [e1, e2, e3, Option.some_or, Option.some.injEq] at h8; exact absurd h8 (by decide))
  subst hname
  refine ⟨rfl, ?_⟩
  have h1 := List.append_cancel_left (List.append_cancel_left h0)
  exact (List.append_inj h1 (by rw [hc, hc'])).1

/-- **C101 (what holds), by the clock.** Partial: full C101 concludes `m = m'`.  Until the year 9999,
matches with the same id come from the same function, and its clock showed the same hundredth of
a second. -/
theorem C101_same_hundredth_partial (name name' : Str) (c c' : Nat) (m m' : Match)
    (h : SentBy name (clockText c) m) (h' : SentBy name' (clockText c') m')
    (hc : (dateAfter (c / 8640000)).1 < 10000) (hc' : (dateAfter (c' / 8640000)).1 < 10000)
    (he : m.id = m'.id) : name = name' ∧ c = c' := by
  obtain ⟨h1, h2⟩ := C101_ids_across_runs_partial _ _ _ _ m m' h h' (clockText_length hc) (clockText_length hc') he
  exact ⟨h1, clockText_injective hc hc' h2⟩

/-- **C101 (the clock).** Until the year 9999, the clock text in a match id is the date and the
time of day at which the run of the function began, to a hundredth of a second. -/
theorem C101_clock_in_id (name : Str) (c : Nat) (m : Match) (h : SentBy name (clockText c) m)
    (hc : (dateAfter (c / 8640000)).1 < 10000) :
    ∃ clock num, IsClock c clock ∧ Decimals num ∧
      m.id = "profile-".toList ++ name ++ "-time-".toList ++ clock ++ "-num-".toList ++ num := by
  obtain ⟨-, n, hn⟩ := sentBy_id h
  refine ⟨_, fmtNat n, isClock_clockText hc, (decInt_fmtNat n).1, ?_⟩
  rw [hn]; rfl

/-- The clock in words: leap days, the end of a year, and a hundredth of a second. -/
example : clockText 0 = "1970-01-01T00:00:00.00".toList ∧ clockText (789 * 8640000 + 8639999) = "1972-02-29T23:59:59.99".toList ∧
    clockText (790 * 8640000) = "1972-03-01T00:00:00.00".toList ∧ clockText (364 * 8640000 + 123456) = "1970-12-31T00:20:34.56".toList ∧
    clockText (365 * 8640000) = "1971-01-01T00:00:00.00".toList := by decide +kernel

example : ∃ m, SentBy soloName "2024-05-01T12:00:00.00".toList m ∧
    m.id = "profile-a-simple-1v1-matchfunction-time-2024-05-01T12:00:00.00-num-0".toList := by
  have h1 : (firstDuel (labelledProfile "europe" "1-0" "2-0") "2024-05-01T12:00:00.00".toList).map (·.id) =
      some "profile-a-simple-1v1-matchfunction-time-2024-05-01T12:00:00.00-num-0".toList := by decide +kernel
  obtain ⟨m, hm, he⟩ := Option.map_eq_some_iff.1 h1
  exact ⟨m, sentBy_firstDuel hm, he⟩

/-! ## C102 -/

/-- The full claim: the function is served at the port the environment names, at 8081 when it
names none, and not at all when the number is no port. -/
def C102_statement : Prop :=
  mmfServes none = some 8081 ∧
  ∀ s : Str,
    (∀ n, DecInt s n → 0 ≤ n → n < 65536 → mmfServes (some s) = some n) ∧
    (∀ n, DecInt s n → (n < 0 ∨ 65536 ≤ n) → mmfServes (some s) = none) ∧
    ((¬ ∃ n, DecInt s n) → mmfServes (some s) = some 8081)

theorem mmfPort_ok {s : Str} {n : Int} (h : DecInt s n) (h1 : -2 ^ 63 ≤ n) (h2 : n < 2 ^ 63) : mmfPort (some s) = n := by
  have := (parseInt10_iff s n).2 ⟨h, h1, h2⟩
  simp [mmfPort, this, ParseRes.isErr, ParseRes.value]

theorem mmfPort_err {s : Str} (h : ∀ n, DecInt s n → n < -2 ^ 63 ∨ 2 ^ 63 ≤ n) : mmfPort (some s) = 8081 := by
  unfold mmfPort
  dsimp only
  cases hp : parseInt10 s with
  | ok v =>
    have := (parseInt10_iff s v).1 hp
    have := h v this.1
    omega
  | syntaxErr => simp [ParseRes.isErr]
  | rangeErr v => simp [ParseRes.isErr]

/-- **C102, exactly.** The port that is served, for every value of PORT: a number in the range of
an int64 is reduced to 32 bits, everything else is taken for 8081. -/
theorem C102_port_exactly (s : Str) :
    (∀ n, DecInt s n → -2 ^ 63 ≤ n → n < 2 ^ 63 →
      mmfServes (some s) = if n % 2 ^ 32 < 65536 then some (n % 2 ^ 32) else none) ∧
    ((∀ n, DecInt s n → n < -2 ^ 63 ∨ 2 ^ 63 ≤ n) → mmfServes (some s) = some 8081) := by
  constructor
  · intro n h h1 h2
    unfold mmfServes int32
    rw [mmfPort_ok h h1 h2]
    dsimp only
    split
    · rename_i hp
      rw [if_pos (by omega)]
      congr 1
      omega
    · rename_i hp
      rw [if_neg (by omega)]
  · intro h
    unfold mmfServes
    rw [mmfPort_err h]
    decide

/-- **C102 is false of the code**: 4294967297 is taken for port 1. -/
theorem C102_port_refuted : ¬ C102_statement := by
  intro h
  have h1 : DecInt "4294967297".toList 4294967297 :=
    ((parseInt10_iff _ _).1 (show parseInt10 "4294967297".toList = .ok 4294967297 by decide +kernel)).1
  have h2 := (h.2 "4294967297".toList).2.1 _ h1 (by decide)
  have h3 : mmfServes (some "4294967297".toList) = some 1 := by decide +kernel
  rw [h3] at h2
  cases h2

/-- **C102 (what holds).** Partial: full C102 has no lower and upper bound on numbers that are no
ports. -/
theorem C102_port_partial :
    mmfServes none = some 8081 ∧
    ∀ s : Str,
      (∀ n, DecInt s n → 0 ≤ n → n < 65536 → mmfServes (some s) = some n) ∧
      (∀ n, DecInt s n → (n < 0 ∨ 65536 ≤ n) → -2 ^ 31 ≤ n → n < 2 ^ 31 → mmfServes (some s) = none) ∧
      ((¬ ∃ n, DecInt s n) → mmfServes (some s) = some 8081) := by
  refine ⟨by decide, fun s => ⟨fun n h h1 h2 => ?_, fun n h h1 h2 h3 => ?_, fun h => ?_⟩⟩
  · rw [(C102_port_exactly s).1 n h (by omega) (by omega), if_pos (by omega)]
    congr 1
    omega
  · rw [(C102_port_exactly s).1 n h (by omega) (by omega), if_neg (by omega)]
  · exact (C102_port_exactly s).2 fun n hn => absurd ⟨n, hn⟩ h

example : [some "8080", some "+080", some "65536", some "-1", some "", some "80a", some "99999999999999999999", none].map
    (fun e => mmfServes (e.map String.toList)) =
    [some 8080, some 80, none, none, some 8081, some 8081, some 8081, some 8081] := by decide +kernel

/-! ## C103 -/

/-- The full claim, from the description of the metrics (core/metrics.go:124-137, "Total tickets
set to active"): the recorded number is that of the updates that were made. -/
def C103_statement : Prop :=
  ∀ (cfg : Config) (cmd : Cmd) (ids : List Str) (us : List StateUpdate) (rs : List StateResponse),
    activeStateQueue cfg cmd ids = .ok us → rs.length = us.length →
    activeStateRecord cfg cmd ids = some (rs.filter fun r => r.err.isNone).length

/-- **C103 is false of the code**: updates that failed are counted as well. -/
theorem C103_per_call_metrics_refuted : ¬ C103_statement := by
  intro h
  have h1 := h Config.default .activate ["1-0".toList] [⟨.activate, "1-0".toList, []⟩] [⟨[], some "lost".toList⟩] (by decide +kernel) rfl
  exact absurd h1 (by decide +kernel)

theorem numUpdates_eq (ts : List Ticket) : ∀ n, ts.foldl (fun n t => if t.id ≠ [] then n + 1 else n) n =
    n + (ts.filter fun t => decide (t.id ≠ [])).length := by
  induction ts with
  | nil => intro n; rfl
  | cons t ts ih =>
    intro n
    rw [List.foldl_cons, ih, List.filter_cons]
    by_cases ht : t.id = [] <;> simp [ht]; omega

/-- **C103 (what holds).** Partial: full C103 counts the updates that succeeded.  A call records the
number of updates it put on the queue, and a refused call records nothing. -/
theorem C103_per_call_metrics_partial (cfg : Config) (cmd : Cmd) (ids : List Str) (cd : Codec) (roster : Option Roster) :
    activeStateRecord cfg cmd ids =
      (match activeStateQueue cfg cmd ids with | .ok us => some us.length | .error _ => none) ∧
    assignmentsRecord cd roster =
      (match createAssignmentsQueue cd roster with | .ok us => some us.length | .error _ => none) := by
  constructor
  · unfold activeStateRecord activeStateQueue
    split <;> rename_i h <;> split at h
    · cases h; simp [*]
    · split at h <;> cases h; simp [*]
    · cases h
    · split at h <;> cases h; simp [*, stateUpdatesFor]
  · unfold assignmentsRecord
    cases h : createAssignmentsQueue cd roster with
    | error e => rfl
    | ok us =>
      simp only
      unfold createAssignmentsQueue at h
      split at h
      · cases h
      · split at h
        · cases h
        · split at h
          · cases h
          · cases h
            simp only [Option.map_some, Option.some.injEq, numUpdates, numUpdates_eq, Nat.zero_add]
            generalize Roster.tickets _ = l
            induction l with
            | nil => rfl
            | cons t ts ih =>
              by_cases ht : t.id = [] <;> simp [ht] at ih ⊢ <;> omega

/-- **C103 (when it is right).** Partial, as above.  The recorded number is never less than the number of updates that were
made, and it is that number exactly if none of them failed. -/
theorem C103_unless_failures_partial (cfg : Config) (cmd : Cmd) (ids : List Str) (cd : Codec) (roster : Option Roster)
    (us : List StateUpdate) (rs : List StateResponse) (n : Nat) (hl : rs.length = us.length)
    (h : activeStateQueue cfg cmd ids = .ok us ∧ activeStateRecord cfg cmd ids = some n ∨
      createAssignmentsQueue cd roster = .ok us ∧ assignmentsRecord cd roster = some n) :
    (rs.filter fun r => r.err.isNone).length ≤ n ∧
    ((rs.filter fun r => r.err.isNone).length = n ↔ ∀ r ∈ rs, r.err = none) := by
  obtain ⟨h1, h2⟩ := C103_per_call_metrics_partial cfg cmd ids cd roster
  have hn : n = rs.length := by
    rcases h with ⟨q, e⟩ | ⟨q, e⟩
    · rw [h1, q, Option.some.injEq] at e; omega
    · rw [h2, q, Option.some.injEq] at e; omega
  rw [hn]
  refine ⟨List.length_filter_le _ _, ?_⟩
  rw [List.length_filter_eq_length_iff]
  simp only [Option.isNone_iff_eq_none]

example : activeStateRecord Config.default .deactivate ["1-0".toList, "x".toList, "1-0".toList] = some 2 ∧
    activeStateRecord { Config.default with maxUpdates := 2 } .deactivate ["1-0".toList, "x".toList, "1-0".toList] = none ∧
    assignmentsRecord Wire.codec (some ⟨[], some ⟨"host".toList, []⟩, [tk "1-0", tk "", tk "2-0"], []⟩) = some 2 := by
  decide +kernel

end OM.Props
