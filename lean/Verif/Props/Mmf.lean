import Verif.Lemmas.Mmf
import Verif.Props.Invoke
/-!
# Properties C50-C55: the example MMFs

Every theorem quantifies over which sends fail (`ok`), the clock and, where the code
ranges over a map, the iteration order.
-/
namespace OM.Props
open OM.Mmf OM.Spec

/-! ## C50 -/

theorem sent_facts {g : Nat → List Ticket → Match} {l : List Ticket} {w k total : Nat} {ok : Nat → Bool} {err : Bool}
    (hg : ∀ n ts, matchTickets (g n ts) = ts) (ht : total = l.length / w) (hw : 0 < w)
    (hs : StopsAtFailure ok total k err) :
    (∀ n < k, ((l.drop (w * n)).take w).length = w) ∧
      ((List.range k).map fun n => g n ((l.drop (w * n)).take w)).flatMap matchTickets = l.take (w * k) := by
  refine ⟨fun n hn => ?_, ?_⟩
  · have hk : k ≤ total := by rcases hs.2 with h | h <;> omega
    have h1 : w * (n + 1) ≤ w * (l.length / w) := Nat.mul_le_mul_left _ (by omega)
    have h2 : w * (l.length / w) ≤ l.length := Nat.mul_div_le ..
    rw [Nat.mul_succ] at h1
    simp only [List.length_take, List.length_drop]
    omega
  · rw [← windows l w k, List.flatMap_map]
    simp only [hg]

theorem mem_allTickets {ord : GoMap Pool} {t : Ticket} :
    t ∈ allTickets ord ↔ ∃ e ∈ ord, ∃ r, e.2.participants = some r ∧ t ∈ r.tickets := by
  unfold allTickets
  rw [List.mem_flatMap]
  constructor
  · rintro ⟨e, he, h⟩
    cases hp : e.2.participants with
    | none => simp [hp] at h
    | some r => exact ⟨e, he, r, hp, by simpa [hp] using h⟩
  · rintro ⟨e, he, r, hp, h⟩
    exact ⟨e, he, by simpa [hp] using h⟩

theorem allTickets_perm {a b : GoMap Pool} (h : a.Perm b) : (allTickets a).Perm (allTickets b) :=
  h.flatMap_right _

theorem solo_run (ok : Nat → Bool) (t : Str) (now : Nat → Timestamp) (ord : GoMap Pool) (p : Profile) :
    ∃ r k, soloduel ok t now ord (some p) = some r ∧ StopsAtFailure ok ((allTickets ord).length / 2) k r.err ∧
      r.sent = (List.range k).map (fun n =>
        { id := matchId soloName t n
          rosters := [(rosterName soloName n, { name := rosterName soloName n, assignment := none, tickets := ((allTickets ord).drop (2 * n)).take 2, extensions := [("CreationTime".toList, anyTime (now n))] })]
          extensions := extensionsFor soloName p.name }) := by
  obtain ⟨r, k, h1, h2, h3⟩ := solo_steps (ok := ok) (g := fun n ts =>
        { id := matchId soloName t n
          rosters := [(rosterName soloName n, { name := rosterName soloName n, assignment := none, tickets := ts, extensions := [("CreationTime".toList, anyTime (now n))] })]
          extensions := extensionsFor soloName p.name }) (allTickets ord)
  refine ⟨r, k, ?_, h3, h2⟩
  unfold soloduel
  rw [all_tickets]
  exact h1

/-- **C50.** For any order of the pools, soloduel pairs up the tickets of all pools in
that order: every match has one roster of exactly two tickets, the matches use up the
first `2 * matches` tickets exactly, nothing comes from outside the profile's pools,
and there are `⌊n/2⌋` matches (so at most one ticket is left) unless a send fails, at
which point the run stops with that error. -/
theorem C50_pairs (ok : Nat → Bool) (t : Str) (now : Nat → Timestamp) (p : Profile) (ord : GoMap Pool)
    (hord : ord.Perm p.pools) :
    ∃ r, soloduel ok t now ord (some p) = some r ∧
      StopsAtFailure ok ((allTickets p.pools).length / 2) r.sent.length r.err ∧
      (∀ m ∈ r.sent, ∃ (n : Str) (ro : Roster), m.rosters = [(n, ro)] ∧ ro.tickets.length = 2) ∧
      r.sent.flatMap matchTickets = (allTickets ord).take (2 * r.sent.length) ∧
      (∀ m ∈ r.sent, ∀ tk ∈ matchTickets m, ∃ e ∈ p.pools, ∃ ro, e.2.participants = some ro ∧ tk ∈ ro.tickets) ∧
      (r.err = false → (allTickets p.pools).length ≤ 2 * r.sent.length + 1) := by
  obtain ⟨r, k, h1, h2, h3⟩ := solo_run ok t now ord p
  have hlen : r.sent.length = k := by rw [h3]; simp
  have hn := (allTickets_perm hord).length_eq
  have hf := sent_facts (g := fun n ts => ({ id := matchId soloName t n, rosters := [(rosterName soloName n, { name := rosterName soloName n, assignment := none, tickets := ts, extensions := [("CreationTime".toList, anyTime (now n))] })], extensions := extensionsFor soloName p.name } : Match))
    (fun n ts => by simp [matchTickets]) rfl (by omega) h2
  have hfl : r.sent.flatMap matchTickets = (allTickets ord).take (2 * r.sent.length) := by
    rw [hlen, h3]; exact hf.2
  refine ⟨r, h1, by rw [hlen, ← hn]; exact h2, ?_, hfl, ?_, ?_⟩
  · intro m hm
    rw [h3] at hm
    obtain ⟨n, hn', rfl⟩ := List.mem_map.1 hm
    exact ⟨_, _, rfl, hf.1 n (List.mem_range.1 hn')⟩
  · intro m hm tk htk
    have : tk ∈ r.sent.flatMap matchTickets := List.mem_flatMap.2 ⟨m, hm, htk⟩
    rw [hfl] at this
    obtain ⟨e, he, h⟩ := mem_allTickets.1 (List.mem_of_mem_take this)
    exact ⟨e, hord.mem_iff.1 he, h⟩
  · intro he
    rcases h2.2 with h | h
    · omega
    · rw [he] at h; exact absurd h.1 (by simp)

/-! ## C51 -/

/-- The full claim: no ticket id appears twice among the matches of one run. -/
def C51_statement : Prop :=
  ∀ (ok : Nat → Bool) (t : Str) (now : Nat → Timestamp) (p : Profile) (ord : GoMap Pool) (r : RunRes),
    ord.Perm p.pools → soloduel ok t now ord (some p) = some r →
      ((r.sent.flatMap matchTickets).map (·.id)).Nodup

def soloTicket (id : Str) : Ticket := { (default : Ticket) with id := id }
def soloPool (ids : List Str) : Pool :=
  { (default : Pool) with participants := some { (default : Roster) with tickets := ids.map soloTicket } }
def overlapProfile : Profile :=
  { name := "p".toList, extensions := [], pools := [("a".toList, soloPool ["1".toList]), ("b".toList, soloPool ["1".toList])] }

/-- **C51, refuted.** A ticket that is in two pools (om-core puts a ticket in every pool
whose filters it meets) is matched against itself. -/
theorem C51_no_duplicates_refuted : ¬ C51_statement := by
  intro h
  have h1 : (soloduel (fun _ => true) [] (fun _ => default) overlapProfile.pools (some overlapProfile)).map
      (fun r => (r.sent.flatMap matchTickets).map (·.id)) = some ["1".toList, "1".toList] := by decide +kernel
  obtain ⟨r, hr, he⟩ := Option.map_eq_some_iff.1 h1
  have := h _ _ _ overlapProfile _ r (List.Perm.refl _) hr
  rw [he] at this
  exact absurd this (by decide)

/-- **C51, the part that holds**: when no ticket is in two pools (or twice in one). -/
theorem C51_disjoint_pools_partial (ok : Nat → Bool) (t : Str) (now : Nat → Timestamp) (p : Profile)
    (ord : GoMap Pool) (r : RunRes) (hord : ord.Perm p.pools) (hd : ((allTickets p.pools).map (·.id)).Nodup)
    (hr : soloduel ok t now ord (some p) = some r) : ((r.sent.flatMap matchTickets).map (·.id)).Nodup := by
  obtain ⟨r', h1, -, -, h4, -, -⟩ := C50_pairs ok t now p ord hord
  obtain rfl : r' = r := Option.some.inj (h1.symm.trans hr)
  rw [h4, List.map_take]
  exact (((allTickets_perm hord).map (·.id)).nodup_iff.2 hd).sublist (List.take_sublist ..)

/-- **C51 (exactly).** With an even number of participants and no failed send, the matches of a
run repeat a ticket just when two pools, or one pool twice, hold it, whatever the order of the
pools: the function never removes the second occurrence. -/
theorem C51_exactly (ok : Nat → Bool) (t : Str) (now : Nat → Timestamp) (p : Profile)
    (ord : GoMap Pool) (r : RunRes) (hord : ord.Perm p.pools) (hr : soloduel ok t now ord (some p) = some r)
    (he : r.err = false) (hev : (allTickets p.pools).length % 2 = 0) :
    ((r.sent.flatMap matchTickets).map (·.id)).Nodup ↔ ((allTickets p.pools).map (·.id)).Nodup := by
  obtain ⟨r', h1, -, -, h4, -, h6⟩ := C50_pairs ok t now p ord hord
  obtain rfl : r' = r := Option.some.inj (h1.symm.trans hr)
  have hl := h6 he
  rw [h4, List.take_of_length_le (by rw [(allTickets_perm hord).length_eq]; omega)]
  exact ((allTickets_perm hord).map (·.id)).nodup_iff

example : (allTickets overlapProfile.pools).length % 2 = 0 ∧ ¬ ((allTickets overlapProfile.pools).map (·.id)).Nodup := by
  decide +kernel

def fiveProfile : Profile :=
  { name := "p".toList, extensions := [],
    pools := [("a".toList, soloPool ["1".toList, "2".toList, "3".toList]), ("b".toList, soloPool ["4".toList, "5".toList])] }

example : ((allTickets fiveProfile.pools).map (·.id)).Nodup := by decide +kernel
example : (soloduel (fun _ => true) [] (fun _ => default) fiveProfile.pools.reverse (some fiveProfile)).map
    (fun r => (r.err, r.sent.map fun m => (matchTickets m).map (·.id))) =
    some (false, [["4".toList, "5".toList], ["1".toList, "2".toList]]) := by decide +kernel
example : (soloduel (fun n => n == 0) [] (fun _ => default) fiveProfile.pools (some fiveProfile)).map
    (fun r => (r.err, r.sent.length)) = some (true, 1) := by decide +kernel

/-! ## C52 -/

theorem br_run (ok : Nat → Bool) (t : Str) (now : Nat → Timestamp) (p : Profile) :
    ∃ r k, battleroyale ok t now (some p) = some r ∧
      StopsAtFailure ok ((poolTickets p "competitive".toList).length / 100) k r.err ∧
      r.sent = (List.range k).map (fun n =>
        { id := matchId brName t n
          rosters := [(rosterName brName n, { name := rosterName brName n, assignment := none, tickets := ((poolTickets p "competitive".toList).drop (100 * n)).take 100, extensions := [("CreationTime".toList, anyTime (now n))] })]
          extensions := extensionsFor brName p.name }) := by
  obtain ⟨r, k, h1, h2, h3⟩ := br_steps (ok := ok) (g := fun n ts =>
        { id := matchId brName t n
          rosters := [(rosterName brName n, { name := rosterName brName n, assignment := none, tickets := ts, extensions := [("CreationTime".toList, anyTime (now n))] })]
          extensions := extensionsFor brName p.name }) (poolTickets p "competitive".toList)
  refine ⟨r, k, ?_, h3, h2⟩
  unfold battleroyale
  rw [show Mmf.pools (some p) = p.pools from rfl, participants_load]
  exact h1

/-- **C52.** battleroyale sends `⌊n/100⌋` matches for the `n` tickets of the pool
"competitive" (fewer only if a send fails); each has one roster of exactly 100
tickets; together they are the first `100 * matches` tickets of the pool, in order. -/
theorem C52_full_matches (ok : Nat → Bool) (t : Str) (now : Nat → Timestamp) (p : Profile) :
    ∃ r, battleroyale ok t now (some p) = some r ∧
      StopsAtFailure ok ((poolTickets p "competitive".toList).length / 100) r.sent.length r.err ∧
      (∀ m ∈ r.sent, ∃ (n : Str) (ro : Roster), m.rosters = [(n, ro)] ∧ ro.tickets.length = 100) ∧
      r.sent.flatMap matchTickets = (poolTickets p "competitive".toList).take (100 * r.sent.length) := by
  obtain ⟨r, k, h1, h2, h3⟩ := br_run ok t now p
  have hlen : r.sent.length = k := by rw [h3]; simp
  have hf := sent_facts (g := fun n ts => ({ id := matchId brName t n, rosters := [(rosterName brName n, { name := rosterName brName n, assignment := none, tickets := ts, extensions := [("CreationTime".toList, anyTime (now n))] })], extensions := extensionsFor brName p.name } : Match))
    (fun n ts => by simp [matchTickets]) rfl (by omega) h2
  refine ⟨r, h1, by rw [hlen]; exact h2, ?_, by rw [hlen, h3]; exact hf.2⟩
  intro m hm
  rw [h3] at hm
  obtain ⟨n, hn', rfl⟩ := List.mem_map.1 hm
  exact ⟨_, _, rfl, hf.1 n (List.mem_range.1 hn')⟩

def royaleProfile (n : Nat) : Profile :=
  { name := "p".toList, extensions := [], pools := [("competitive".toList, soloPool ((List.range n).map fmtNat))] }

example : (poolTickets (royaleProfile 250) "competitive".toList).length / 100 = 2 := by decide +kernel

/-! ## C53 -/

theorem ts_run (ok : Nat → Bool) (t : Nat → Str) (now : Nat → Timestamp) (p : Profile) :
    ∃ r k, teamshooter ok t now (some p) = some r ∧ StopsAtFailure ok (tsTotal p.pools) k r.err ∧
      r.sent = (List.range k).map (fun n =>
        { id := matchId tsName (t n) n
          rosters := [(teamName 1, ⟨teamName 1, none, team p.pools n 0, []⟩), (teamName 2, ⟨teamName 2, none, team p.pools n 1, []⟩)]
          extensions := extensionsFor tsName p.name ++ [("creationTime".toList, anyTime (now n))] }) := by
  obtain ⟨r, k, h1, h2, h3⟩ := ts_steps (ok := ok) (g := fun n a b =>
        { id := matchId tsName (t n) n
          rosters := [(teamName 1, ⟨teamName 1, none, a, []⟩), (teamName 2, ⟨teamName 2, none, b, []⟩)]
          extensions := extensionsFor tsName p.name ++ [("creationTime".toList, anyTime (now n))] }) p.pools
  exact ⟨r, k, h1, h3, h2⟩

theorem team_places {T H D : List Ticket} {n i : Nat} (h1 : 2 * n + i < T.length) (h2 : 2 * n + i < H.length)
    (h3 : 6 * n + 3 * i + 3 ≤ D.length) (l : List Ticket)
    (hl : l = ((T.drop (2 * n + i)).take 1 ++ (H.drop (2 * n + i)).take 1) ++ (D.drop (6 * n + 3 * i)).take 3) :
    l.length = 5 ∧ (l.drop 0).take 1 = (T.drop (2 * n + i)).take 1 ∧ (l.drop 1).take 1 = (H.drop (2 * n + i)).take 1 ∧
      (l.drop 2).take 3 = (D.drop (6 * n + 3 * i)).take 3 := by
  have e1 : (T.drop (2 * n + i)).take 1 = [T[2 * n + i]] := by rw [List.drop_eq_getElem_cons h1]; rfl
  have e2 : (H.drop (2 * n + i)).take 1 = [H[2 * n + i]] := by rw [List.drop_eq_getElem_cons h2]; rfl
  rw [e1, e2] at hl
  rw [e1, e2]
  clear e1 e2
  generalize hd : (D.drop (6 * n + 3 * i)).take 3 = d at hl ⊢
  have hdl : d.length = 3 := by rw [← hd]; simp; omega
  subst hl
  refine ⟨by simp [hdl], rfl, rfl, ?_⟩
  exact List.take_of_length_le (by simp [hdl])

theorem windows_two {α : Type} (l : List α) (w k : Nat) :
    (List.range k).flatMap (fun n => (l.drop (2 * w * n)).take w ++ (l.drop (2 * w * n + w)).take w) = l.take (2 * w * k) := by
  rw [← windows l (2 * w) k]
  congr 1; funext n
  rw [Nat.two_mul w, List.take_add, List.drop_drop]

/-- **C53.** Every match has exactly the rosters team01 and team02 of five tickets; over
the run, the first places of the rosters are exactly the first tickets of the pool
"tank" in order, the second places those of "healer", the last three those of "dps" —
so every ticket position is used once — and there are
`min(100000, tanks/2, healers/2, dps/6)` matches unless a send fails. -/
theorem C53_complete_teams (ok : Nat → Bool) (t : Nat → Str) (now : Nat → Timestamp) (p : Profile) :
    ∃ r, teamshooter ok t now (some p) = some r ∧
      StopsAtFailure ok (min 100000 (min ((poolTickets p "tank".toList).length / 2)
        (min ((poolTickets p "healer".toList).length / 2) ((poolTickets p "dps".toList).length / 6)))) r.sent.length r.err ∧
      (∀ m ∈ r.sent, ∃ a b : Roster, m.rosters = [("team01".toList, a), ("team02".toList, b)] ∧
        a.tickets.length = 5 ∧ b.tickets.length = 5) ∧
      r.sent.flatMap (places 0 1) = (poolTickets p "tank".toList).take (2 * r.sent.length) ∧
      r.sent.flatMap (places 1 1) = (poolTickets p "healer".toList).take (2 * r.sent.length) ∧
      r.sent.flatMap (places 2 3) = (poolTickets p "dps".toList).take (6 * r.sent.length) := by
  obtain ⟨r, k, h1, h2, h3⟩ := ts_run ok t now p
  have hlen : r.sent.length = k := by rw [h3]; simp
  have hk : k ≤ tsTotal p.pools := by rcases h2.2 with h | h <;> omega
  have htot : tsTotal p.pools = min 100000 (min ((poolTickets p "tank".toList).length / 2)
        (min ((poolTickets p "healer".toList).length / 2) ((poolTickets p "dps".toList).length / 6))) := by
    unfold tsTotal; rw [participants_load, participants_load, participants_load]; rfl
  have hpl : ∀ n < k, ∀ i < 2, (team p.pools n i).length = 5 ∧
      ((team p.pools n i).drop 0).take 1 = ((poolTickets p tank).drop (2 * n + i)).take 1 ∧
      ((team p.pools n i).drop 1).take 1 = ((poolTickets p healer).drop (2 * n + i)).take 1 ∧
      ((team p.pools n i).drop 2).take 3 = ((poolTickets p dps).drop (6 * n + 3 * i)).take 3 := by
    intro n hn i hi
    rw [htot] at hk
    change k ≤ min 100000 (min ((poolTickets p tank).length / 2)
        (min ((poolTickets p healer).length / 2) ((poolTickets p dps).length / 6))) at hk
    apply team_places (by omega) (by omega) (by omega)
    unfold team; rw [participants_load, participants_load, participants_load]
  have key : ∀ (a b w : Nat) (l : List Ticket),
      (∀ n < k, ((team p.pools n 0).drop a).take b = (l.drop (2 * w * n)).take w ∧
        ((team p.pools n 1).drop a).take b = (l.drop (2 * w * n + w)).take w) →
      r.sent.flatMap (places a b) = l.take (2 * w * k) := by
    intro a b w l hl
    rw [h3, List.flatMap_map, ← windows_two]
    apply List.flatMap_congr
    intro n hn
    have := hl n (List.mem_range.1 hn)
    simp only [places, List.flatMap_cons, List.flatMap_nil, List.append_nil]
    rw [this.1, this.2]
  refine ⟨r, h1, by rw [hlen, ← htot]; exact h2, ?_, ?_, ?_, ?_⟩
  · intro m hm
    rw [h3] at hm
    obtain ⟨n, hn, rfl⟩ := List.mem_map.1 hm
    have hn := List.mem_range.1 hn
    refine ⟨⟨teamName 1, none, team p.pools n 0, []⟩, ⟨teamName 2, none, team p.pools n 1, []⟩, ?_,
      (hpl n hn 0 (by omega)).1, (hpl n hn 1 (by omega)).1⟩
    have e1 : teamName 1 = "team01".toList := by decide
    have e2 : teamName 2 = "team02".toList := by decide
    rw [← e1, ← e2]
  · rw [hlen]
    exact key 0 1 1 _ fun n hn => ⟨(hpl n hn 0 (by omega)).2.1, (hpl n hn 1 (by omega)).2.1⟩
  · rw [hlen]
    exact key 1 1 1 _ fun n hn => ⟨(hpl n hn 0 (by omega)).2.2.1, (hpl n hn 1 (by omega)).2.2.1⟩
  · rw [hlen]
    exact key 2 3 3 _ fun n hn => ⟨(hpl n hn 0 (by omega)).2.2.2, (hpl n hn 1 (by omega)).2.2.2⟩

def shooterProfile : Profile :=
  { name := "p".toList, extensions := [],
    pools := [("dps".toList, soloPool ((List.range 13).map fmtNat)), ("tank".toList, soloPool ["a".toList, "b".toList, "c".toList, "d".toList, "e".toList]),
      ("healer".toList, soloPool ["v".toList, "w".toList, "x".toList, "y".toList])] }

example : (teamshooter (fun _ => true) (fun _ => []) (fun _ => default) (some shooterProfile)).map
    (fun r => (r.err, r.sent.length, (r.sent.flatMap (places 0 1)).map (·.id))) =
    some (false, 2, ["a".toList, "b".toList, "c".toList, "d".toList]) := by decide +kernel

/-! ## C54 -/

theorem after_last_dash {a b x y : Str} (hx : '-' ∉ x) (hy : '-' ∉ y) (h : a ++ '-' :: x = b ++ '-' :: y) :
    x = y := by
  have hr := congrArg List.reverse h
  simp only [List.reverse_append, List.reverse_cons, List.append_assoc, List.singleton_append] at hr
  have key : ∀ (u v c d : Str), '-' ∉ u → '-' ∉ v → u ++ '-' :: c = v ++ '-' :: d → u = v := by
    intro u
    induction u with
    | nil =>
      intro v c d _ hv he
      cases v with
      | nil => rfl
      | cons e v => simp at he; exact absurd he.1 (by rintro rfl; simp at hv)
    | cons e u ih =>
      intro v c d hu hv he
      cases v with
      | nil => simp at he; exact absurd he.1 (by rintro rfl; simp at hu)
      | cons e' v =>
        simp at he hu hv
        rw [he.1, ih v c d hu.2 hv.2 he.2]
  have := key _ _ _ _ (by simpa using hx) (by simpa using hy) hr
  simpa using this

theorem matchId_num {name t t' : Str} {m n : Nat} (h : matchId name t m = matchId name t' n) : m = n := by
  apply fmtNat_injective
  refine after_last_dash (a := "profile-".toList ++ name ++ "-time-".toList ++ t ++ "-num".toList)
    (b := "profile-".toList ++ name ++ "-time-".toList ++ t' ++ "-num".toList)
    (dash_not_mem_fmtNat m) (dash_not_mem_fmtNat n) ?_
  have e : ∀ (c d : Str), c ++ "-num-".toList ++ d = c ++ "-num".toList ++ '-' :: d := by intro c d; simp
  rw [← e, ← e]; exact h

theorem nodup_range_map {α : Type} {k : Nat} {f : Nat → α} (h : ∀ i j, f i = f j → i = j) :
    ((List.range k).map f).Nodup :=
  List.pairwise_map.2 (List.nodup_range.imp fun hne he => hne (h _ _ he))

/-- **C54.** Within one run of any of the example MMFs, whatever the clock shows at each
match, the match ids are pairwise different; so are the roster names of soloduel and
battleroyale. -/
theorem C54_unique_ids (ok : Nat → Bool) (t : Str) (times : Nat → Str) (now : Nat → Timestamp) (p : Profile)
    (ord : GoMap Pool) :
    (∀ r, soloduel ok t now ord (some p) = some r →
      (r.sent.map (·.id)).Nodup ∧ (r.sent.flatMap fun m => m.rosters.map (·.1)).Nodup) ∧
    (∀ r, battleroyale ok t now (some p) = some r →
      (r.sent.map (·.id)).Nodup ∧ (r.sent.flatMap fun m => m.rosters.map (·.1)).Nodup) ∧
    (∀ r, teamshooter ok times now (some p) = some r → (r.sent.map (·.id)).Nodup) := by
  have hrn : ∀ (name : Str) (i j : Nat), rosterName name i = rosterName name j → i = j := fun name i j h =>
    fmtNatPad_injective (List.append_cancel_left h)
  refine ⟨fun r hr => ?_, fun r hr => ?_, fun r hr => ?_⟩
  · obtain ⟨r', k, h1, -, h3⟩ := solo_run ok t now ord p
    obtain rfl : r' = r := Option.some.inj (h1.symm.trans hr)
    rw [h3, List.map_map, List.flatMap_map]
    refine ⟨nodup_range_map fun i j h => matchId_num h, ?_⟩
    simp only [List.map_cons, List.map_nil]
    rw [← List.map_eq_flatMap]
    exact nodup_range_map fun i j h => hrn _ _ _ h
  · obtain ⟨r', k, h1, -, h3⟩ := br_run ok t now p
    obtain rfl : r' = r := Option.some.inj (h1.symm.trans hr)
    rw [h3, List.map_map, List.flatMap_map]
    refine ⟨nodup_range_map fun i j h => matchId_num h, ?_⟩
    simp only [List.map_cons, List.map_nil]
    rw [← List.map_eq_flatMap]
    exact nodup_range_map fun i j h => hrn _ _ _ h
  · obtain ⟨r', k, h1, -, h3⟩ := ts_run ok times now p
    obtain rfl : r' = r := Option.some.inj (h1.symm.trans hr)
    rw [h3, List.map_map]
    exact nodup_range_map fun i j h => matchId_num h

example : (teamshooter (fun _ => true) (fun _ => "2024-01-01T00:00:00.00".toList) (fun _ => default) (some shooterProfile)).map
    (fun r => r.sent.map (·.id)) =
    some ["profile-team-shooter-5v5-matchfunction-time-2024-01-01T00:00:00.00-num-0".toList,
      "profile-team-shooter-5v5-matchfunction-time-2024-01-01T00:00:00.00-num-1".toList] := by decide +kernel

/-! ## C55 -/

/-- What the three MMFs do on a stream that delivers `msgs` and then fails; `ord` gives
the iteration order of a map. -/
def mmfRuns (ok : Nat → Bool) (t : Str) (times : Nat → Str) (now : Nat → Timestamp) (ord : GoMap Pool → GoMap Pool)
    (msgs : List ChunkedMmfRunRequest) : List (Go RunRes) :=
  [withRequest (fun req => soloduel ok t now (ord (Mmf.pools req)) req) msgs,
    withRequest (battleroyale ok t now) msgs, withRequest (teamshooter ok times now) msgs]

/-- The stream breaks off before the chunk that would complete it. -/
def Incomplete (msgs : List ChunkedMmfRunRequest) : Prop :=
  ∀ (j : Nat) (m : ChunkedMmfRunRequest), msgs[j]? = some m → m.numChunks ≠ (j : Int) + 1

/-- The full claim, for any client. -/
def C55_statement : Prop :=
  ∀ (ok : Nat → Bool) (t : Str) (times : Nat → Str) (now : Nat → Timestamp) (ord : GoMap Pool → GoMap Pool)
    (msgs : List ChunkedMmfRunRequest), (∀ m, (ord m).Perm m) → msgs.length < 2 ^ 31 - 1 → Incomplete msgs →
    ∀ r ∈ mmfRuns ok t times now ord msgs, r = some ⟨[], false⟩

theorem no_request (ok : Nat → Bool) (t : Str) (times : Nat → Str) (now : Nat → Timestamp)
    (ord : GoMap Pool → GoMap Pool) (hord : ∀ m, (ord m).Perm m) (msgs rest : List ChunkedMmfRunRequest)
    (h : getChunkedRequest msgs = some (.err, rest)) : ∀ r ∈ mmfRuns ok t times now ord msgs, r = some ⟨[], false⟩ := by
  have e : ord (Mmf.pools none) = [] := List.perm_nil.1 (hord [])
  intro r hr
  simp only [mmfRuns, withRequest, h, List.mem_cons, List.not_mem_nil, or_false] at hr
  rcases hr with rfl | rfl | rfl
  · rw [e]; rfl
  · unfold battleroyale
    rw [show participants (GoMap.load (Mmf.pools none) "competitive".toList) = [] from rfl, brLoop, if_neg (by simp [brPlayers])]
  · unfold teamshooter maxNumMatches
    rw [show (100000 : Nat) = 99999 + 1 from rfl, tsLoop, if_pos (by decide)]

/-- **C55, refuted for arbitrary clients**: two chunks that name a pool without
participants crash every MMF in `GetChunkedRequest`. -/
theorem C55_any_client_refuted : ¬ C55_statement := by
  intro h
  let m : ChunkedMmfRunRequest := ⟨some { name := [], extensions := [], pools := [("a".toList, default)] }, 9⟩
  have := h (fun _ => true) [] (fun _ => []) (fun _ => default) id [m, m] (fun _ => List.Perm.refl _) (by decide) (by
    intro j x hx
    match j, hx with
    | 0, hx => cases hx; decide
    | 1, hx => cases hx; decide
    | j + 2, hx => simp at hx) _ (List.mem_cons_self ..)
  exact absurd this (by decide +kernel)

/-- Every pool of every chunk has participants. -/
def HaveParticipants (msgs : List ChunkedMmfRunRequest) : Prop :=
  ∀ m ∈ msgs, ∀ q, m.profile = some q → ∀ e ∈ q.pools, e.2.participants.isSome

theorem merge_ok (l : GoMap Pool) : ∀ acc : GoMap Pool, (∀ k q, acc.load k = some q → q.participants.isSome) →
    (∀ e ∈ l, e.2.participants.isSome) →
    ∃ acc', l.foldlM mergePool acc = some acc' ∧ ∀ k q, acc'.load k = some q → q.participants.isSome := by
  induction l with
  | nil => intro acc h _; exact ⟨acc, rfl, h⟩
  | cons e l ih =>
    intro acc h hl
    have hstep : ∃ a, mergePool acc e = some a ∧ ∀ k q, a.load k = some q → q.participants.isSome := by
      unfold mergePool
      cases hload : acc.load e.1 with
      | none =>
        refine ⟨_, rfl, fun k q hk => ?_⟩
        rw [GoMap.load_store] at hk
        split at hk
        · cases hk; exact hl e (List.mem_cons_self ..)
        · exact h k q hk
      | some q0 =>
        have hq := h _ _ hload
        cases hp : q0.participants with
        | none => rw [hp] at hq; exact absurd hq (by simp)
        | some r =>
          dsimp only
          rw [hp]
          refine ⟨_, rfl, fun k q hk => ?_⟩
          rw [GoMap.load_store] at hk
          split at hk
          · cases hk; rfl
          · exact h k q hk
    obtain ⟨a, ha, hinv⟩ := hstep
    obtain ⟨a', ha', h'⟩ := ih a hinv fun e he => hl e (List.mem_cons_of_mem _ he)
    exact ⟨a', by rw [List.foldlM_cons, ha]; exact ha', h'⟩

theorem getChunks_incomplete (msgs : List ChunkedMmfRunRequest) : ∀ (i : Nat) (acc : GoMap Pool),
    (∀ k q, acc.load k = some q → q.participants.isSome) → HaveParticipants msgs → i + msgs.length < 2 ^ 31 →
    (∀ (j : Nat) (m : ChunkedMmfRunRequest), msgs[j]? = some m → m.numChunks ≠ ((i + j : Nat) : Int)) →
    getChunks i acc msgs = some (.err, []) := by
  induction msgs with
  | nil => intro i acc _ _ hi _; unfold getChunks; rw [if_neg (by simp at hi; omega)]
  | cons m rest ih =>
    intro i acc hacc hp hi hn
    simp only [List.length_cons] at hi
    unfold getChunks
    rw [if_neg (by omega)]
    have hm : ∀ e ∈ ((m.profile.map (·.pools)).getD [] : GoMap Pool), e.2.participants.isSome := by
      cases hq : m.profile with
      | none => intro e he; simp at he
      | some q => intro e he; exact hp m (List.mem_cons_self ..) q hq e (by simpa using he)
    obtain ⟨acc', h1, h2⟩ := merge_ok _ acc hacc hm
    dsimp only
    rw [h1]
    dsimp only
    rw [if_neg (by simpa using hn 0 m rfl)]
    refine ih (i + 1) acc' h2 (fun x hx => hp x (List.mem_cons_of_mem _ hx)) (by omega) fun j x hx => ?_
    have := hn (j + 1) x (by simpa using hx)
    rwa [show i + 1 + j = i + (j + 1) by omega]

/-- **C55, any client whose pools have participants**: a stream that fails before the
completing chunk gives no match, no error and no panic, in each of the three MMFs. -/
theorem C55_with_participants_partial (ok : Nat → Bool) (t : Str) (times : Nat → Str) (now : Nat → Timestamp)
    (ord : GoMap Pool → GoMap Pool) (hord : ∀ m, (ord m).Perm m) (msgs : List ChunkedMmfRunRequest)
    (hlen : msgs.length < 2 ^ 31 - 1) (hp : HaveParticipants msgs) (hi : Incomplete msgs) :
    ∀ r ∈ mmfRuns ok t times now ord msgs, r = some ⟨[], false⟩ := by
  apply no_request ok t times now ord hord msgs []
  apply getChunks_incomplete msgs 1 [] (by intro k q h; cases h) hp (by omega)
  intro j m hm
  have := hi j m hm
  rw [show ((1 + j : Nat) : Int) = (j : Int) + 1 by omega]
  exact this

/-- **C55, om-core as the client**: whatever prefix of the chunks om-core sends arrives
before the stream fails, no example MMF sends a match or panics. -/
theorem C55_truncated_request (p : Profile) (hwf : p.pools.WF) (ts : List Ticket)
    (ha : ∀ t ∈ ts, t.attributes.isSome) (work : List (Ticket × List Str)) (hw : WorkFor p ts work) :
    ∃ sent, chunkedRequest p work = some sent ∧ (sent.length < 2 ^ 31 → ∀ got, List.Forall₂ Received sent got →
      ∀ k < got.length, ∀ (ok : Nat → Bool) (t : Str) (times : Nat → Str) (now : Nat → Timestamp)
        (ord : GoMap Pool → GoMap Pool), (∀ m, (ord m).Perm m) →
        ∀ r ∈ mmfRuns ok t times now ord (got.take k), r = some ⟨[], false⟩) := by
  obtain ⟨sent, h1, -, -, h4⟩ := C39_framing p hwf ts ha work hw
  exact ⟨sent, h1, fun hl got hg k hk ok t times now ord hord =>
    no_request ok t times now ord hord _ [] ((h4 hl got hg).2 k hk)⟩

example : HaveParticipants [⟨some fiveProfile, 2⟩] ∧ Incomplete [⟨some fiveProfile, 2⟩] := by
  constructor
  · intro m hm q hq e he
    simp only [List.mem_cons, List.not_mem_nil, or_false] at hm
    subst hm; cases hq
    simp only [fiveProfile, List.mem_cons, List.not_mem_nil, or_false] at he
    rcases he with rfl | rfl <;> rfl
  · intro j m hm
    match j, hm with
    | 0, hm => cases hm; decide
    | j + 1, hm => simp at hm

end OM.Props
