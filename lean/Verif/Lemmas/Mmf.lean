import Verif.Model.Mmf
import Verif.Spec.Mmf
import Verif.Lemmas.Go
/-! Lemmas about the example MMFs. -/
namespace OM.Mmf

/-- A loop that sends `g n` while `n < K`. -/
theorem stream_of_steps {ok : Nat → Bool} {K : Nat} {g : Nat → Match} (L : Nat → Go RunRes)
    (h1 : ∀ n < K, L n = emit ok n (some (g n)) (L (n + 1))) (h2 : L K = some ⟨[], false⟩) :
    ∃ r k, L 0 = some r ∧ r.sent = (List.range k).map g ∧ Spec.StopsAtFailure ok K k r.err := by
  have key : ∀ d n, n + d = K → ∃ r k, L n = some r ∧ n ≤ k ∧ r.sent = (List.range' n (k - n)).map g ∧
      (∀ i, n ≤ i → i < k → ok i = true) ∧
      ((r.err = false ∧ k = K) ∨ (r.err = true ∧ k < K ∧ ok k = false)) := by
    intro d
    induction d with
    | zero =>
      intro n hn
      obtain rfl : n = K := by omega
      exact ⟨_, n, h2, Nat.le_refl _, by simp, fun i h h' => by omega, .inl ⟨rfl, rfl⟩⟩
    | succ d ih =>
      intro n hn
      rw [h1 n (by omega)]
      cases hok : ok n with
      | false =>
        exact ⟨⟨[], true⟩, n, by simp [emit, hok], Nat.le_refl _, by simp, fun i h h' => by omega,
          .inr ⟨rfl, by omega, hok⟩⟩
      | true =>
        obtain ⟨r, k, hr, hk, hs, hall, hend⟩ := ih (n + 1) (by omega)
        refine ⟨{ r with sent := g n :: r.sent }, k, by simp [emit, hok, hr], by omega, ?_, ?_, hend⟩
        · rw [hs, show k - n = (k - (n + 1)) + 1 by omega, List.range'_succ]; rfl
        · intro i h h'
          by_cases e : i = n
          · rw [e]; exact hok
          · exact hall i (by omega) h'
  obtain ⟨r, k, hr, -, hs, hall, hend⟩ := key K 0 (by omega)
  exact ⟨r, k, hr, by simpa [List.range_eq_range'] using hs, fun i hi => hall i (Nat.zero_le _) hi, hend⟩

theorem windows {α : Type} (l : List α) (w k : Nat) :
    (List.range k).flatMap (fun j => (l.drop (w * j)).take w) = l.take (w * k) := by
  induction k with
  | zero => simp
  | succ k ih =>
    rw [List.range_succ, List.flatMap_append, ih, Nat.mul_succ, List.take_add]
    simp

theorem participants_load (p : Profile) (n : Str) : participants (p.pools.load n) = Spec.poolTickets p n := by
  unfold participants Spec.poolTickets
  cases h : GoMap.load p.pools n with
  | none => rfl
  | some q => cases hq : q.participants <;> simp [hq]

theorem all_tickets (ord : GoMap Pool) :
    (ord.flatMap fun e => participants (some e.2)) = Spec.allTickets ord := by
  unfold Spec.allTickets
  congr 1; funext e
  cases h : e.2.participants <;> simp [participants, h]

/-! ## soloduel, battleroyale -/

theorem solo_steps {ok : Nat → Bool} {g : Nat → List Ticket → Match} (ts : List Ticket) :
    ∃ r k, soloLoop ok (fun n l => some (g n l)) ts [] 0 = some r ∧
      r.sent = (List.range k).map (fun n => g n ((ts.drop (2 * n)).take 2)) ∧
      Spec.StopsAtFailure ok (ts.length / 2) k r.err := by
  apply stream_of_steps (fun n => soloLoop ok (fun n l => some (g n l)) (ts.drop (2 * n)) [] n)
  · intro n hn
    have hd : ts.drop (2 * n) = ts[2 * n] :: ts[2 * n + 1] :: ts.drop (2 * (n + 1)) := by
      rw [List.drop_eq_getElem_cons (by omega), List.drop_eq_getElem_cons (by omega)]; rfl
    simp only [hd]
    simp [soloLoop, tixPerMatch]
  · have hl : (ts.drop (2 * (ts.length / 2))).length ≤ 1 := by simp; omega
    match h : ts.drop (2 * (ts.length / 2)), hl with
    | [], _ => simp [soloLoop]
    | [a], _ => simp [soloLoop, tixPerMatch]
    | a :: b :: l, hl => simp at hl

theorem br_steps {ok : Nat → Bool} {g : Nat → List Ticket → Match} (ts : List Ticket) :
    ∃ r k, brLoop ok (fun n l => some (g n l)) ts 0 0 = some r ∧
      r.sent = (List.range k).map (fun n => g n ((ts.drop (100 * n)).take 100)) ∧
      Spec.StopsAtFailure ok (ts.length / 100) k r.err := by
  apply stream_of_steps (fun n => brLoop ok (fun n l => some (g n l)) ts (100 * n) n)
  · intro n hn
    show brLoop _ _ _ _ _ = _
    rw [brLoop, if_pos (by simp only [brPlayers]; omega)]
    rfl
  · show brLoop _ _ _ _ _ = _
    rw [brLoop, if_neg (by simp only [brPlayers]; omega)]

/-! ## teamshooter -/

theorem fillSlot_some {pools : GoMap Pool} {s : TsSt} {ty : Str} {i : Nat} {t : Ticket}
    (hi : s.idx.load ty = some i) (ht : (participants (pools.load ty))[i]? = some t) :
    fillSlot pools s ty = { s with idx := s.idx.store ty (i + 1), tickets := s.tickets ++ [t] } := by
  simp [fillSlot, hi, ht]

theorem fillSlot_none {pools : GoMap Pool} {s : TsSt} {ty : Str} {i : Nat}
    (hi : s.idx.load ty = some i) (ht : (participants (pools.load ty)).length ≤ i) :
    fillSlot pools s ty = { s with exhausted := true } := by
  simp [fillSlot, hi, List.getElem?_eq_none ht]

theorem fillSlot_exhausted {pools : GoMap Pool} {s : TsSt} {ty : Str} (h : s.exhausted = true) :
    (fillSlot pools s ty).exhausted = true := by
  unfold fillSlot; dsimp only; split <;> simp [h]

theorem fold_exhausted {pools : GoMap Pool} (tys : List Str) {s : TsSt} (h : s.exhausted = true) :
    (tys.foldl (fillSlot pools) s).exhausted = true := by
  induction tys generalizing s with
  | nil => exact h
  | cons ty tys ih => exact ih (fillSlot_exhausted h)

abbrev tank : Str := "tank".toList
abbrev healer : Str := "healer".toList
abbrev dps : Str := "dps".toList

/-- The three indices. -/
def At (idx : GoMap Nat) (x y z : Nat) : Prop :=
  idx.load tank = some x ∧ idx.load healer = some y ∧ idx.load dps = some z

theorem th : tank ≠ healer := by decide
theorem td : tank ≠ dps := by decide
theorem hd : healer ≠ dps := by decide

section
variable {pools : GoMap Pool} {s : TsSt} {x y z : Nat} {t : Ticket}

theorem slot_tank (h : At s.idx x y z) (ht : (participants (pools.load tank))[x]? = some t) :
    (fillSlot pools s tank).tickets = s.tickets ++ [t] ∧ (fillSlot pools s tank).exhausted = s.exhausted ∧
      At (fillSlot pools s tank).idx (x + 1) y z := by
  rw [fillSlot_some h.1 ht]
  exact ⟨rfl, rfl, GoMap.load_store_same .., (GoMap.load_store_ne _ _ th.symm).trans h.2.1,
    (GoMap.load_store_ne _ _ td.symm).trans h.2.2⟩

theorem slot_healer (h : At s.idx x y z) (ht : (participants (pools.load healer))[y]? = some t) :
    (fillSlot pools s healer).tickets = s.tickets ++ [t] ∧ (fillSlot pools s healer).exhausted = s.exhausted ∧
      At (fillSlot pools s healer).idx x (y + 1) z := by
  rw [fillSlot_some h.2.1 ht]
  exact ⟨rfl, rfl, (GoMap.load_store_ne _ _ th).trans h.1, GoMap.load_store_same ..,
    (GoMap.load_store_ne _ _ hd.symm).trans h.2.2⟩

theorem slot_dps (h : At s.idx x y z) (ht : (participants (pools.load dps))[z]? = some t) :
    (fillSlot pools s dps).tickets = s.tickets ++ [t] ∧ (fillSlot pools s dps).exhausted = s.exhausted ∧
      At (fillSlot pools s dps).idx x y (z + 1) := by
  rw [fillSlot_some h.2.2 ht]
  exact ⟨rfl, rfl, (GoMap.load_store_ne _ _ td).trans h.1, (GoMap.load_store_ne _ _ hd).trans h.2.1,
    GoMap.load_store_same ..⟩

end

theorem fillTeam_def (pools : GoMap Pool) (idx : GoMap Nat) (ex : Bool) :
    fillTeam pools idx ex = fillSlot pools (fillSlot pools (fillSlot pools (fillSlot pools
      (fillSlot pools ⟨idx, ex, []⟩ tank) healer) dps) dps) dps := rfl

section
variable {pools : GoMap Pool} {idx : GoMap Nat} {ex : Bool} {x y z : Nat}

/-- A team that can be filled. -/
theorem fillTeam_full (h : At idx x y z) (hx : x < (participants (pools.load tank)).length)
    (hy : y < (participants (pools.load healer)).length) (hz : z + 3 ≤ (participants (pools.load dps)).length) :
    (fillTeam pools idx ex).tickets = (((participants (pools.load tank)).drop x).take 1 ++
        ((participants (pools.load healer)).drop y).take 1) ++ ((participants (pools.load dps)).drop z).take 3 ∧
      (fillTeam pools idx ex).exhausted = ex ∧ At (fillTeam pools idx ex).idx (x + 1) (y + 1) (z + 3) := by
  obtain ⟨a1, a2, a3⟩ := slot_tank (s := ⟨idx, ex, []⟩) h (List.getElem?_eq_getElem hx)
  obtain ⟨b1, b2, b3⟩ := slot_healer a3 (List.getElem?_eq_getElem hy)
  obtain ⟨c1, c2, c3⟩ := slot_dps b3 (List.getElem?_eq_getElem (l := participants (pools.load dps)) (show z < _ by omega))
  obtain ⟨d1, d2, d3⟩ := slot_dps c3 (List.getElem?_eq_getElem (l := participants (pools.load dps)) (show z + 1 < _ by omega))
  obtain ⟨e1, e2, e3⟩ := slot_dps d3 (List.getElem?_eq_getElem (l := participants (pools.load dps)) (show z + 1 + 1 < _ by omega))
  rw [fillTeam_def]
  refine ⟨?_, by rw [e2, d2, c2, b2, a2], e3⟩
  rw [e1, d1, c1, b1, a1, List.drop_eq_getElem_cons hx, List.drop_eq_getElem_cons hy,
    List.drop_eq_getElem_cons (l := participants (pools.load dps)) (show z < _ by omega), List.drop_eq_getElem_cons (l := participants (pools.load dps)) (show z + 1 < _ by omega),
    List.drop_eq_getElem_cons (l := participants (pools.load dps)) (show z + 1 + 1 < _ by omega)]
  rfl

/-- A team that cannot. -/
theorem fillTeam_short (h : At idx x y z)
    (hs : (participants (pools.load tank)).length ≤ x ∨ (participants (pools.load healer)).length ≤ y ∨
      (participants (pools.load dps)).length < z + 3) : (fillTeam pools idx ex).exhausted = true := by
  rw [fillTeam_def]
  by_cases hx : (participants (pools.load tank)).length ≤ x
  · rw [fillSlot_none (s := ⟨idx, ex, []⟩) h.1 hx]
    exact fold_exhausted [healer, dps, dps, dps] rfl
  obtain ⟨-, -, a3⟩ := slot_tank (s := ⟨idx, ex, []⟩) h (List.getElem?_eq_getElem (Nat.lt_of_not_le hx))
  by_cases hy : (participants (pools.load healer)).length ≤ y
  · rw [fillSlot_none a3.2.1 hy]
    exact fold_exhausted [dps, dps, dps] rfl
  obtain ⟨-, -, b3⟩ := slot_healer a3 (List.getElem?_eq_getElem (Nat.lt_of_not_le hy))
  by_cases h0 : (participants (pools.load dps)).length ≤ z
  · rw [fillSlot_none b3.2.2 h0]
    exact fold_exhausted [dps, dps] rfl
  obtain ⟨-, -, c3⟩ := slot_dps b3 (List.getElem?_eq_getElem (Nat.lt_of_not_le h0))
  by_cases h1 : (participants (pools.load dps)).length ≤ z + 1
  · rw [fillSlot_none c3.2.2 h1]
    exact fold_exhausted [dps] rfl
  obtain ⟨-, -, d3⟩ := slot_dps c3 (List.getElem?_eq_getElem (Nat.lt_of_not_le h1))
  rw [fillSlot_none d3.2.2 (by omega)]

theorem fillTeam_exhausted : (fillTeam pools idx true).exhausted = true :=
  fold_exhausted teamComp rfl

end

/-- The indices before match `n`. -/
def idxSeq (pools : GoMap Pool) : Nat → GoMap Nat
  | 0 => teamComp.foldl (fun m ty => m.store ty 0) []
  | n + 1 =>
    let a := fillTeam pools (idxSeq pools n) false
    (fillTeam pools a.idx a.exhausted).idx

/-- The number of matches the pools allow. -/
def tsTotal (pools : GoMap Pool) : Nat :=
  min maxNumMatches (min ((participants (pools.load tank)).length / 2)
    (min ((participants (pools.load healer)).length / 2) ((participants (pools.load dps)).length / 6)))

/-- The tickets of team `i` (0 or 1) of match `n`. -/
def team (pools : GoMap Pool) (n i : Nat) : List Ticket :=
  (((participants (pools.load tank)).drop (2 * n + i)).take 1 ++
    ((participants (pools.load healer)).drop (2 * n + i)).take 1) ++
    ((participants (pools.load dps)).drop (6 * n + 3 * i)).take 3

theorem ts_match {pools : GoMap Pool} {n : Nat} {idx : GoMap Nat} (h : At idx (2 * n) (2 * n) (6 * n))
    (hn : n < tsTotal pools) :
    let a := fillTeam pools idx false
    let b := fillTeam pools a.idx a.exhausted
    a.tickets = team pools n 0 ∧ b.tickets = team pools n 1 ∧ b.exhausted = false ∧
      At b.idx (2 * (n + 1)) (2 * (n + 1)) (6 * (n + 1)) := by
  intro a b
  unfold tsTotal at hn
  obtain ⟨a1, a2, a3⟩ := fillTeam_full (ex := false) (pools := pools) h (by omega) (by omega) (by omega)
  obtain ⟨b1, b2, b3⟩ := fillTeam_full (ex := a.exhausted) (pools := pools) a3 (by omega) (by omega) (by omega)
  exact ⟨a1, b1, b2.trans a2, b3⟩

theorem idxSeq_at {pools : GoMap Pool} {n : Nat} (hn : n ≤ tsTotal pools) :
    At (idxSeq pools n) (2 * n) (2 * n) (6 * n) := by
  induction n with
  | zero => unfold At idxSeq; decide
  | succ n ih => exact (ts_match (ih (by omega)) (by omega)).2.2.2

theorem ts_steps {ok : Nat → Bool} {g : Nat → List Ticket → List Ticket → Match} (pools : GoMap Pool) :
    ∃ r k, tsLoop ok (fun n a b => some (g n a b)) pools maxNumMatches 0
        (teamComp.foldl (fun m ty => m.store ty 0) []) = some r ∧
      r.sent = (List.range k).map (fun n => g n (team pools n 0) (team pools n 1)) ∧
      Spec.StopsAtFailure ok (tsTotal pools) k r.err := by
  apply stream_of_steps
    (fun n => tsLoop ok (fun n a b => some (g n a b)) pools (maxNumMatches - n) n (idxSeq pools n))
  · intro n hn
    obtain ⟨h1, h2, h3, -⟩ := ts_match (idxSeq_at (Nat.le_of_lt hn)) hn
    have hl : maxNumMatches - n = (maxNumMatches - (n + 1)) + 1 := by unfold tsTotal at hn; omega
    show tsLoop _ _ _ _ _ _ = _
    rw [hl, tsLoop]
    rw [h3, if_neg (by simp), h1, h2]
    rfl
  · show tsLoop _ _ _ _ _ _ = _
    cases hl : maxNumMatches - tsTotal pools with
    | zero => rfl
    | succ left =>
      have hat := idxSeq_at (pools := pools) (Nat.le_refl _)
      rw [tsLoop]
      rw [if_pos]
      by_cases hfull : 2 * tsTotal pools < (participants (pools.load tank)).length ∧
          2 * tsTotal pools < (participants (pools.load healer)).length ∧
          6 * tsTotal pools + 3 ≤ (participants (pools.load dps)).length
      · obtain ⟨-, -, a3⟩ := fillTeam_full (ex := false) (pools := pools) hat hfull.1 hfull.2.1 hfull.2.2
        apply fillTeam_short a3
        unfold tsTotal at *
        omega
      · rw [fillTeam_short (pools := pools) (ex := false) hat (by omega)]
        exact fillTeam_exhausted

end OM.Mmf
