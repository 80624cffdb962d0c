import Verif.Props.Example
import Verif.Props.Limits
import Verif.Props.RelayLoss
/-!
# Properties C133 and C134: who is served in a round

C133: om-core hands the matches of all invoked functions over as they come
(core/main.go:605-706, with the comment at 616-623 that collisions are left to the
matchmaker); it does not look whether two of them contain the same player.

C134: the tickets of a pool come from ranging over a `sync.Map` (core/main.go:391, 947-959) and
soloduel pairs them in the order it gets them (functions/golang/soloduel/soloduel.go:85-131), so with an odd number of
players any of them can be the one left over, however long they have been waiting.
-/
namespace OM.Props
open OM.Spec OM.Mm

/-! ## C133 -/

/-- **C133, the full statement**: no player is in two matches of a call (nor twice in one),
for every population in which each player plays one class and every choice of the example's
functions. -/
def C133Statement (good : List Relay.Mmf → Prop) : Prop :=
  ∀ (ts : List Ticket), (ts.map (·.id)).Nodup →
    (∀ t ∈ ts, (∃ a, t.attributes = some a ∧ WFAttrs a) ∧ ∃ c, IsClass c ∧ Plays t c) →
    ∀ (work : List (Ticket × List Str)), WorkFor exampleProfile ts work →
    ∀ (sent : List ChunkedMmfRunRequest), chunkedRequest exampleProfile work = some sent → sent.length < 2 ^ 31 →
    ∀ (wait : Bool) (fs : List Relay.Mmf), good fs → (∀ f ∈ fs, ExampleMmf sent f) →
    ∀ (ls : List Relay.Label) (s : Relay.St), Relay.run wait fs (Relay.init fs) ls = some s →
      (((Relay.handed s).flatMap players).map (·.id)).Nodup

/-- **C133 is false of the code** as soon as two functions are invoked: both get all the
tickets, and om-core passes on what both return. -/
theorem C133_one_match_each_refuted : ¬ C133Statement (fun _ => True) := by
  intro h
  have h1 : (Relay.run false popMmfs (Relay.init popMmfs) popLabels).map Relay.handed =
      some [some popDuel, some popFive] := by decide +kernel
  obtain ⟨s, hs, he⟩ := Option.map_eq_some_iff.1 h1
  have := h popTickets (by decide +kernel) pop_ok popWork popWork_ok popSent popSent_eq (by decide +kernel) false popMmfs trivial
    (by
      intro f hf
      simp only [popMmfs, List.mem_cons, List.not_mem_nil, or_false] at hf
      rcases hf with rfl | rfl
      · exact .inl pop_solo
      · exact .inr (.inr pop_team))
    popLabels s hs
  rw [he] at this
  revert this
  decide +kernel

/-- **C133, the part that holds**: when one function is invoked. -/
theorem C133_one_function_partial : C133Statement (fun fs => ∃ f, fs = [f]) := by
  rintro ts hts hcls work hw sent hs hlen wait fs ⟨f, rfl⟩ hf ls s hr
  have hattr : ∀ t ∈ ts, t.attributes.isSome := by
    intro t ht
    obtain ⟨⟨a, h, -⟩, -⟩ := hcls t ht
    rw [h]; rfl
  have hdis : ∀ t n n', Fits exampleProfile ts n t → Fits exampleProfile ts n' t → n = n' := by
    intro t n n' h h'
    obtain ⟨hw', c, hc, hp⟩ := hcls t h.1
    rw [(fits_example h.1 hc hp hw' n).1 h, (fits_example h.1 hc hp hw' n').1 h']
  have hwf : exampleProfile.pools.WF := by unfold GoMap.WF; decide
  rcases hf f (List.mem_singleton.2 rfl) with hf | hf | hf
  · exact C84_each_player_once _ hwf _ hattr hts hdis work hw sent hs hlen wait f hf ls s hr
  · exact C84_each_player_once_royale _ hwf _ hattr hts hdis work hw sent hs hlen wait f hf ls s hr
  · exact C84_each_player_once_teams _ hwf _ hattr hts hdis work hw sent hs hlen wait f hf ls s hr

/-- When the call has returned and all functions ended normally, the matches handed over are
exactly those the functions returned. -/
theorem handed_perm {wait : Bool} {fs : List Relay.Mmf} (hf : ∀ f ∈ fs, f.starts = true ∧ f.eof = true) {ls : List Relay.Label}
    {s : Relay.St} (hr : Relay.run wait fs (Relay.init fs) ls = some s) (hm : s.main = .returned) :
    (Relay.handed s).Perm (fs.flatMap (·.results)) := by
  have h1 := C43_faithful_at_most_once wait fs ls s hr
  have h2 := (C45_all_delivered_or_in_flight_partial wait fs ls s hr hm).1
  rw [returned, List.filter_eq_self.2 (fun f h => (hf f h).1)] at h1
  rw [finished, List.filter_eq_self.2 (fun f h => by rw [(hf f h).1, (hf f h).2]; rfl)] at h2
  exact h1.antisymm h2

/-- **C133 (exactly).** When the call has returned and all functions ended normally, each
player is in as many of the matches handed over as the functions put them in: collisions
between functions are neither removed nor added. -/
theorem C133_exactly (wait : Bool) (fs : List Relay.Mmf) (hf : ∀ f ∈ fs, f.starts = true ∧ f.eof = true)
    (ls : List Relay.Label) (s : Relay.St) (hr : Relay.run wait fs (Relay.init fs) ls = some s) (hm : s.main = .returned) (id : Str) :
    (((Relay.handed s).flatMap players).map (·.id)).count id =
      (fs.map fun f => ((f.results.flatMap players).map (·.id)).count id).sum := by
  rw [(((handed_perm hf hr hm).flatMap_right players).map (·.id)).count_eq]
  clear hf hr
  induction fs with
  | nil => rfl
  | cons f fs ih =>
    simp only [List.flatMap_cons, List.flatMap_append, List.map_append, List.count_append, List.map_cons, List.sum_cons, ih]

/-- Both functions of the example end normally, and the call returns: the first tank is in two matches. -/
example : ∃ ls s, Relay.run false popMmfs (Relay.init popMmfs) ls = some s ∧ s.main = .returned ∧
    (((Relay.handed s).flatMap players).map (·.id)).count (mockAt 0 1).id = 2 := by
  obtain ⟨ls, s, h1, h2, -⟩ := (C45_loss_exactly false popMmfs).2 ⟨by decide, by
    have e : finished popMmfs = [some popDuel, some popFive] := rfl
    rw [e]
    intro m hm
    simp only [List.mem_cons, List.not_mem_nil, or_false] at hm
    have h1 : (popDuel.rosters.flatMap (·.2.tickets)) ≠ [] := by decide +kernel
    have h2 : (popFive.rosters.flatMap (·.2.tickets)) ≠ [] := by decide +kernel
    rcases hm with rfl | rfl
    · obtain ⟨t, ht⟩ := List.exists_mem_of_ne_nil _ h1
      obtain ⟨e, he, ht⟩ := List.mem_flatMap.1 ht
      exact ⟨t, _, rfl, e, he, ht⟩
    · obtain ⟨t, ht⟩ := List.exists_mem_of_ne_nil _ h2
      obtain ⟨e, he, ht⟩ := List.mem_flatMap.1 ht
      exact ⟨t, _, rfl, e, he, ht⟩⟩
  refine ⟨ls, s, h1, h2, ?_⟩
  rw [C133_exactly false popMmfs (by decide) ls s h1 h2]
  decide +kernel

/-! ## C134 -/

/-- A round of soloduel on the waiting tickets `ts` in which nothing goes wrong: the snapshot
lists them in some order, all chunks arrive, every send works, the call returns.  `served` are
the players of the matches handed over. -/
def SmoothRound (p : Profile) (ts served : List Ticket) : Prop :=
  ∃ ts' work sent got r res wait ls s, ts'.Perm ts ∧ WorkFor p ts' work ∧ chunkedRequest p work = some sent ∧
    sent.length < 2 ^ 31 ∧ List.Forall₂ Received sent got ∧ SoloRun got r ∧ r.err = false ∧ List.Forall₂ SameMatch r.sent res ∧
    Relay.run wait [⟨true, res, true⟩] (Relay.init [⟨true, res, true⟩]) ls = some s ∧ s.main = .returned ∧
    served = (Relay.handed s).flatMap players

/-- Player `x` has been waiting through `n` rounds (each with at least two players) without
being in a match; `ever` are all who ever came, in the order they came, `ts` those waiting. -/
inductive Overlooked (p : Profile) (x : Ticket) : Nat → List Ticket → List Ticket → Prop
  | first : x.attributes.isSome → Overlooked p x 0 [x] [x]
  | join {n ever ts} (t : Ticket) : Overlooked p x n ever ts → t.attributes.isSome → t.id ∉ ever.map (·.id) →
      Overlooked p x n (ever ++ [t]) (ts ++ [t])
  | round {n ever ts served} : Overlooked p x n ever ts → 2 ≤ ts.length → SmoothRound p ts served → x ∉ served →
      Overlooked p x (n + 1) ever (ts.filter (· ∉ served))

/-- **C134, the full statement**: for a profile whose only pool admits everybody, there is a
number of rounds within which every waiting player is matched. -/
def C134_statement : Prop := ∃ n, ∀ x ever ts, ¬ Overlooked openProfile x n ever ts

theorem sameMatch_players : ∀ {l : List Match} {l' : List (Option Match)}, List.Forall₂ Spec.SameMatch l l' →
    (l'.flatMap players).Perm (l.flatMap matchTickets)
  | _, _, .nil => List.Perm.refl _
  | _, _, .cons hm h => by
    obtain ⟨x, rfl, -, hr, -⟩ := hm
    simp only [List.flatMap_cons, players]
    exact (hr.flatMap_right _).append (sameMatch_players h)

/-- What a smooth round serves: the players of the function's matches. -/
theorem smooth_served {p : Profile} {ts served : List Ticket} (h : SmoothRound p ts served) :
    ∃ ts' work sent got r, ts'.Perm ts ∧ WorkFor p ts' work ∧ chunkedRequest p work = some sent ∧
      sent.length < 2 ^ 31 ∧ List.Forall₂ Received sent got ∧ SoloRun got r ∧ r.err = false ∧
      served.Perm (r.sent.flatMap matchTickets) := by
  obtain ⟨ts', work, sent, got, r, res, wait, ls, s, h1, h2, h3, h4, h5, h6, h7, h8, h9, h10, rfl⟩ := h
  refine ⟨ts', work, sent, got, r, h1, h2, h3, h4, h5, h6, h7, ?_⟩
  have := handed_perm (fs := [⟨true, res, true⟩]) (by simp) h9 h10
  simp only [List.flatMap_cons, List.flatMap_nil, List.append_nil] at this
  exact (this.flatMap_right _).trans (sameMatch_players h8)

/-- **C134, the part that holds**: in a round in which nothing goes wrong at most one player
who fits a pool is left over (with any pools, players in several of them included). -/
theorem C134_at_most_one_left_partial (p : Profile) (hwf : p.pools.WF) (ts : List Ticket) (ha : ∀ t ∈ ts, t.attributes.isSome)
    (served : List Ticket) (h : SmoothRound p ts served) (a b : Ticket) (n m : Str) (hfa : Fits p ts n a) (hfb : Fits p ts m b)
    (hna : a ∉ served) (hnb : b ∉ served) : a = b := by
  obtain ⟨ts', work, sent, got, r, hp, hw, hs, hl, hg, ⟨ok, t, now, ord, hord, hr⟩, he, hserved⟩ := smooth_served h
  have ha' : ∀ t ∈ ts', t.attributes.isSome := fun t ht => ha t (hp.mem_iff.1 ht)
  obtain ⟨sent', h1, h2⟩ := C38_mmf_receives_exactly_the_matching_tickets p hwf ts' ha' work hw
  obtain rfl : sent' = sent := Option.some.inj (h1.symm.trans hs)
  obtain ⟨q, h3, h4, -⟩ := h2 hl got [] hg
  rw [List.append_nil] at h3
  simp only [Mmf.withRequest, h3, Mmf.pools, Option.map_some, Option.getD_some] at hr
  obtain ⟨r', e1, -, -, e4, -, e6⟩ := C50_pairs ok t now q (ord q.pools) (hord _)
  obtain rfl : r' = r := Option.some.inj (e1.symm.trans hr)
  have hlen := e6 he
  have hperm : (allTickets (ord q.pools)).Perm (allTickets q.pools) := allTickets_perm (hord _)
  rw [← hperm.length_eq] at hlen
  have hin : ∀ {x : Ticket} {n : Str}, Fits p ts n x → x ∈ allTickets (ord q.pools) := by
    rintro x n ⟨hx, pool, hload, hbad, hIn⟩
    have hxp : x ∈ participants pool ts' := by
      rw [participants, List.mem_filter]
      exact ⟨hp.mem_iff.2 hx, by simpa using hIn⟩
    obtain ⟨sp, ro, b1, b2, b3⟩ := h4 n pool hload hbad (List.ne_nil_of_mem hxp)
    rw [hperm.mem_iff]
    exact mem_allTickets.2 ⟨(n, sp), GoMap.mem_of_load b1, ro, b2, by rw [b3]; exact hxp⟩
  have hlast : ∀ {x : Ticket} {n : Str}, Fits p ts n x → x ∉ served → x ∈ (allTickets (ord q.pools)).drop (2 * r'.sent.length) := by
    intro x n hx hns
    have := hin hx
    rw [← List.take_append_drop (2 * r'.sent.length) (allTickets (ord q.pools)), List.mem_append] at this
    rcases this with h' | h'
    · rw [← e4, ← hserved.mem_iff] at h'
      exact absurd h' hns
    · exact h'
  have ha1 := hlast hfa hna
  have hb1 := hlast hfb hnb
  have hd : ((allTickets (ord q.pools)).drop (2 * r'.sent.length)).length ≤ 1 := by rw [List.length_drop]; omega
  match hm : (allTickets (ord q.pools)).drop (2 * r'.sent.length), hd, ha1, hb1 with
  | [], _, h, _ => exact absurd h (by simp)
  | [c], _, h, h' => rw [List.mem_singleton.1 h, List.mem_singleton.1 h']
  | _ :: _ :: _, h, _, _ => simp at h

/-- **C134 (anyone can be left over).** Of an odd number of players, whichever one: there is a round in
which nothing goes wrong that serves exactly the others. -/
theorem C134_anyone_can_be_left (l₁ l₂ : List Ticket) (x : Ticket) (ha : ∀ t ∈ l₁ ++ x :: l₂, t.attributes.isSome)
    (hodd : (l₁ ++ l₂).length % 2 = 0) (hne : l₁ ++ l₂ ≠ []) (hlt : (l₁ ++ l₂).length + 2 < 2 ^ 31) :
    ∃ served, SmoothRound openProfile (l₁ ++ x :: l₂) served ∧ served.Perm (l₁ ++ l₂) := by
  generalize hL : l₁ ++ l₂ = L at *
  have hperm : (L ++ [x]).Perm (l₁ ++ x :: l₂) := by
    rw [← hL]
    exact (List.perm_append_singleton x (l₁ ++ l₂)).trans List.perm_middle.symm
  have ha' : ∀ t ∈ L ++ [x], t.attributes.isSome := fun t ht => ha t (hperm.mem_iff.1 ht)
  obtain ⟨sent, hs, -, h3, -⟩ := C39_framing _ open_wf _ ha' _ (openWork_for (L ++ [x]))
  have hl : sent.length < 2 ^ 31 := by
    have := chunkCount open_wf ha' (openWork_for _) hs
    rw [open_additions _ ha'] at this
    simp only [List.length_map, List.length_append, List.length_cons, List.length_nil] at this
    omega
  have hrefl : List.Forall₂ Received sent sent := by
    refine List.forall₂_same.2 fun y hy => ?_
    obtain ⟨-, q, hq, -, -⟩ := h3 y hy
    exact ⟨q, q, hq, hq, rfl, rfl, List.Perm.refl _, List.Perm.refl _⟩
  obtain ⟨q, hq, -, htix⟩ := open_seen _ ha' (by simp) hs hl hrefl
  obtain ⟨r, e1, e2, e3, e4, -, -⟩ := C50_pairs (fun _ => true) [] (fun _ => ⟨0, 0⟩) q q.pools (List.Perm.refl _)
  have hk : r.sent.length = (allTickets q.pools).length / 2 ∧ r.err = false := by
    rcases e2.2 with ⟨h1, h2⟩ | ⟨-, -, h3⟩
    · exact ⟨h2, h1⟩
    · cases h3
  have h2k : 2 * r.sent.length = L.length := by
    rw [hk.1, htix, List.length_append, List.length_cons, List.length_nil]; omega
  rw [h2k, htix, List.take_left] at e4
  have hpos : r.sent ≠ [] := by
    intro h0
    rw [h0] at h2k
    simp only [List.length_nil, Nat.mul_zero] at h2k
    exact hne (List.length_eq_zero_iff.1 h2k.symm)
  obtain ⟨ls, s, hr1, hr2, -⟩ := (C45_loss_exactly false [⟨true, r.sent.map some, true⟩]).2 ⟨by
      simp only [finished, List.filter_cons, List.filter_nil, Bool.and_self, if_true, List.flatMap_cons, List.flatMap_nil, List.append_nil]
      exact fun h => hpos (List.map_eq_nil_iff.1 h), by
      intro m hm
      simp only [finished, List.filter_cons, List.filter_nil, Bool.and_self, if_true, List.flatMap_cons, List.flatMap_nil,
        List.append_nil] at hm
      obtain ⟨y, hy, rfl⟩ := List.mem_map.1 hm
      obtain ⟨nm, ro, h5, h6⟩ := e3 y hy
      obtain ⟨t, ht⟩ := List.exists_mem_of_ne_nil ro.tickets (by intro h; rw [h] at h6; cases h6)
      exact ⟨t, y, rfl, (nm, ro), by rw [h5]; simp, ht⟩⟩
  have hround : SmoothRound openProfile (l₁ ++ x :: l₂) ((Relay.handed s).flatMap players) :=
    ⟨L ++ [x], openWork (L ++ [x]), sent, sent, r, r.sent.map some, false, ls, s, hperm, openWork_for _, hs, hl, hrefl,
      ⟨fun _ => true, [], fun _ => ⟨0, 0⟩, id, fun _ => List.Perm.refl _, by
        simp only [Mmf.withRequest, hq]
        exact e1⟩, hk.2, sameMatch_refl _, hr1, hr2, rfl⟩
  refine ⟨_, hround, ?_⟩
  have := handed_perm (fs := [⟨true, r.sent.map some, true⟩]) (by simp) hr1 hr2
  simp only [List.flatMap_cons, List.flatMap_nil, List.append_nil] at this
  refine (this.flatMap_right _).trans ((sameMatch_players (sameMatch_refl r.sent)).trans ?_)
  rw [e4]

/-- The `i`-th player to come. -/
def comer (i : Nat) : Ticket := mockAt i 3

theorem comer_id {i j : Nat} (h : (comer i).id = (comer j).id) : i = j :=
  fmtNat_injective (List.append_cancel_left (show "1700000000000-".toList ++ fmtNat i = "1700000000000-".toList ++ fmtNat j from h))

/-- Two more players come in every round, and are matched with each other. -/
theorem overlooked (n : Nat) : Overlooked openProfile (comer 0) n ((List.range (2 * n + 1)).map comer) [comer 0] := by
  induction n with
  | zero => exact .first rfl
  | succ n ih =>
    have hfresh : ∀ k m, m ≤ k → (comer k).id ∉ ((List.range m).map comer).map (·.id) := by
      intro k m hkm h
      simp only [List.map_map, List.mem_map, List.mem_range, Function.comp_apply] at h
      obtain ⟨j, hj, h⟩ := h
      have := comer_id h
      omega
    have h1 := Overlooked.join (comer (2 * n + 1)) ih rfl (hfresh _ _ (Nat.le_refl _))
    have e1 : (List.range (2 * n + 1)).map comer ++ [comer (2 * n + 1)] = (List.range (2 * n + 2)).map comer := by
      rw [List.range_succ (n := 2 * n + 1), List.map_append]; rfl
    rw [e1] at h1
    have h2 := Overlooked.join (comer (2 * n + 2)) h1 rfl (hfresh _ _ (Nat.le_refl _))
    have e2 : (List.range (2 * n + 2)).map comer ++ [comer (2 * n + 2)] = (List.range (2 * (n + 1) + 1)).map comer := by
      rw [show 2 * (n + 1) + 1 = (2 * n + 2) + 1 by omega, List.range_succ (n := 2 * n + 2), List.map_append]; rfl
    rw [e2] at h2
    obtain ⟨served, hround, hp⟩ := C134_anyone_can_be_left [] [comer (2 * n + 1), comer (2 * n + 2)] (comer 0)
      (by intro t ht
          simp only [List.nil_append, List.mem_cons, List.not_mem_nil, or_false] at ht
          rcases ht with rfl | rfl | rfl <;> rfl)
      (by simp) (by simp) (by simp)
    have hm : ∀ t, t ∈ served ↔ t = comer (2 * n + 1) ∨ t = comer (2 * n + 2) := by
      intro t; rw [hp.mem_iff]; simp
    have hx : comer 0 ∉ served := by
      rw [hm]
      rintro (h | h)
      · have := comer_id (congrArg (·.id) h); omega
      · have := comer_id (congrArg (·.id) h); omega
    have h3 := Overlooked.round h2 (by simp) hround hx
    have e3 : ([comer 0] ++ [comer (2 * n + 1)] ++ [comer (2 * n + 2)]).filter (· ∉ served) = [comer 0] := by
      have m1 : comer (2 * n + 1) ∈ served := (hm _).2 (.inl rfl)
      have m2 : comer (2 * n + 2) ∈ served := (hm _).2 (.inr rfl)
      simp [hx, m1, m2]
    rw [e3] at h3
    exact h3

/-- **C134 is false of the code**: however many rounds go by, all of them smooth, the player who
came first can still be waiting, every later one having been served. -/
theorem C134_served_eventually_refuted : ¬ C134_statement := by
  rintro ⟨n, h⟩
  exact h _ _ _ (overlooked n)

/-- A case of the partial claim: three players, the first left over. -/
example : ∃ served, SmoothRound openProfile [comer 0, comer 1, comer 2] served ∧ served.Perm [comer 1, comer 2] ∧
    Fits openProfile [comer 0, comer 1, comer 2] "p".toList (comer 0) := by
  obtain ⟨served, h1, h2⟩ := C134_anyone_can_be_left [] [comer 1, comer 2] (comer 0)
    (by intro t ht
        simp only [List.nil_append, List.mem_cons, List.not_mem_nil, or_false] at ht
        rcases ht with rfl | rfl | rfl <;> rfl)
    (by simp) (by simp) (by simp)
  exact ⟨served, h1, h2, by simp, plainPool, rfl, open_not_bad, in_plainPool _ rfl⟩

end OM.Props
