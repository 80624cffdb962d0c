import Verif.Spec.Gateway
/-!
# Routing, lemmas
-/
namespace OM.Gw

def join (sep : Char) : List Str → Str
  | [] => []
  | [w] => w
  | w :: v :: ws => w ++ sep :: join sep (v :: ws)

theorem join_cons_cons (sep c : Char) (w : Str) (ws : List Str) : join sep ((c :: w) :: ws) = c :: join sep (w :: ws) := by
  cases ws <;> simp [join]

theorem split_ne (sep : Char) (s : Str) : split sep s ≠ [] := by
  induction s with
  | nil => simp [split]
  | cons c cs ih =>
    unfold split
    split
    · simp
    · split <;> simp

theorem join_split (sep : Char) (s : Str) : join sep (split sep s) = s := by
  induction s with
  | nil => rfl
  | cons c cs ih =>
    unfold split
    split
    · rename_i h
      subst h
      cases hs : split c cs with
      | nil => exact absurd hs (split_ne c cs)
      | cons w ws => rw [hs] at ih; simp [join, ih]
    · split
      · rename_i h; exact absurd h (split_ne sep cs)
      · rename_i w ws h
        rw [join_cons_cons, ← h, ih]

theorem split_inj {sep : Char} {s t : Str} (h : split sep s = split sep t) : s = t := by
  rw [← join_split sep s, h, join_split]

/-- The path components a handler answers to. -/
def target (h : Handler) : List Str :=
  match h.pat.verb with
  | [] => h.pat.lits
  | v => h.pat.lits.dropLast ++ [h.pat.lits.getLast?.getD [] ++ ':' :: v]

/-- Two literals, the second not empty. -/
def Good (h : Handler) : Prop := ∃ a c b, h.pat.lits = [a, c :: b] ∧ c ≠ ':'

theorem tryHandler_iff (h : Handler) (hg : Good h) (comps : List Str) : tryHandler h comps = true ↔ comps = target h := by
  obtain ⟨a, c, b, hl, _⟩ := hg
  obtain ⟨m, ⟨lits, verb⟩, r⟩ := h
  dsimp only at hl
  subst hl
  cases verb with
  | nil => simp [tryHandler, verbIdx, matchPattern, target]
  | cons v vs =>
    unfold tryHandler verbIdx matchPattern target
    dsimp only
    by_cases hs : (':' :: v :: vs) <:+ (comps.getLast?.getD [])
    · obtain ⟨pre, hpre⟩ := hs
      have hcond : (v :: vs ≠ [] ∧ (':' :: v :: vs) <:+ (comps.getLast?.getD [])) := ⟨by simp, ⟨pre, hpre⟩⟩
      rw [if_pos hcond]
      have hne : comps ≠ [] := by
        rintro rfl
        simp at hpre
      have hcomps : comps = comps.dropLast ++ [pre ++ ':' :: v :: vs] := by
        rw [hpre]
        conv => lhs; rw [← List.dropLast_concat_getLast hne]
        rw [List.getLast?_eq_some_getLast hne]; rfl
      have hlen : (comps.getLast?.getD []).length - (v :: vs).length - 1 = pre.length := by
        rw [← hpre]; simp only [List.length_append, List.length_cons]; omega
      rw [hlen]
      cases hp : pre with
      | nil =>
        simp only [List.length_nil]
        constructor
        · intro hx; simp at hx
        · intro hx
          exfalso
          rw [hcomps, hp] at hx
          have h1 := List.append_inj' (s₁ := comps.dropLast) (t₁ := [':' :: v :: vs]) (s₂ := [a])
            (t₂ := [c :: (b ++ ':' :: v :: vs)]) (by simpa using hx) rfl
          have h2 := congrArg List.length (List.singleton_inj.1 h1.2)
          simp only [List.length_append, List.length_cons] at h2
          omega
      | cons p ps =>
        rw [← hp]
        have : pre.length = ps.length + 1 := by rw [hp]; rfl
        rw [this]
        dsimp only
        have htake : (comps.getLast?.getD []).take (ps.length + 1) = pre := by
          rw [← hpre, ← this, List.take_left]
        have hdrop : (comps.getLast?.getD []).drop (ps.length + 2) = v :: vs := by
          rw [← hpre, show ps.length + 2 = pre.length + 1 by omega, ← List.drop_drop, List.drop_left]; rfl
        rw [htake, hdrop]
        simp only [List.dropLast_cons_cons, List.dropLast_singleton, List.getLast?_cons_cons, List.getLast?_singleton,
          Option.getD_some, decide_eq_true_eq, true_and]
        constructor
        · intro hx
          rw [hcomps]
          have h1 := (List.append_inj' (s₁ := comps.dropLast) (t₁ := [pre]) (s₂ := [a]) (t₂ := [c :: b]) (by simpa using hx) rfl)
          rw [h1.1, List.singleton_inj.1 h1.2]
        · intro hx
          have h1 := List.append_inj' (hcomps.symm.trans hx) rfl
          have h2 := List.singleton_inj.1 h1.2
          have h3 := List.append_cancel_right h2
          rw [h1.1, h3]; rfl
    · rw [if_neg (by simp only [ne_eq, not_and]; intro _; exact hs)]
      simp only [reduceCtorEq, false_and, decide_false, Bool.false_eq_true, false_iff]
      rintro rfl
      exact hs ⟨c :: b, by simp⟩

theorem good_handlers : ∀ h ∈ handlers, Good h := by
  intro h hh
  simp only [handlers, registered, List.foldl, List.mem_cons, List.not_mem_nil, or_false] at hh
  rcases hh with rfl | rfl | rfl | rfl | rfl | rfl <;> exact ⟨_, _, _, rfl, by decide⟩

/-- A known path is not cut short by the rule for bare verbs. -/
theorem verbIdx_target (h k : Handler) (hg : Good h) :
    verbIdx k.pat ((target h).getLast?.getD []) ≠ some 0 := by
  obtain ⟨a, c, b, hl, hc⟩ := hg
  obtain ⟨x, hx⟩ : ∃ x, (target h).getLast?.getD [] = c :: x := by
    unfold target
    rw [hl]
    split
    · exact ⟨b, rfl⟩
    · exact ⟨_, by simp; rfl⟩
  rw [hx]
  unfold verbIdx
  split
  · rename_i hs
    obtain ⟨_, pre, hpre⟩ := hs
    intro h0
    injection h0 with h0
    cases pre with
    | nil => simp at hpre; exact hc hpre.1.symm
    | cons p ps =>
      have := congrArg List.length hpre
      simp only [List.length_append, List.length_cons] at this h0
      omega
  · simp

theorem dispatch_some (comps : List Str) (hs : List Handler) (hg : ∀ h ∈ hs, Good h) (r : Rpc)
    (h : dispatch comps hs = some (.rpc r)) : ∃ h ∈ hs, h.rpc = r ∧ comps = target h := by
  induction hs with
  | nil => simp [dispatch] at h
  | cons k ks ih =>
    unfold dispatch at h
    split at h
    · simp at h
    · split at h
      · rename_i ht
        refine ⟨k, List.mem_cons_self, by simpa using h, (tryHandler_iff k (hg k List.mem_cons_self) comps).1 ht⟩
      · obtain ⟨x, hx, h1⟩ := ih (fun h hh => hg h (List.mem_cons_of_mem _ hh)) h
        exact ⟨x, List.mem_cons_of_mem _ hx, h1⟩

theorem dispatch_target (hs : List Handler) (hg : ∀ h ∈ hs, Good h) (k : Handler) (hk : k ∈ hs)
    (hd : ∀ h ∈ hs, target h = target k → h.rpc = k.rpc) : dispatch (target k) hs = some (.rpc k.rpc) := by
  induction hs with
  | nil => simp at hk
  | cons x xs ih =>
    unfold dispatch
    rw [if_neg (verbIdx_target k x (hg k hk))]
    split
    · rename_i ht
      have := (tryHandler_iff x (hg x List.mem_cons_self) _).1 ht
      rw [hd x List.mem_cons_self this.symm]
    · rename_i ht
      rcases List.mem_cons.1 hk with rfl | hk'
      · exact absurd ((tryHandler_iff k (hg k List.mem_cons_self) _).2 rfl) ht
      · exact ih (fun h hh => hg h (List.mem_cons_of_mem _ hh)) hk' (fun h hh => hd h (List.mem_cons_of_mem _ hh))

/-- If no handler's path is this one, the request is not dispatched. -/
theorem dispatch_other (comps : List Str) (hs : List Handler) (hg : ∀ h ∈ hs, Good h) (hn : ∀ h ∈ hs, comps ≠ target h) :
    dispatch comps hs = none ∨ dispatch comps hs = some (.refused 404) := by
  induction hs with
  | nil => exact .inl rfl
  | cons k ks ih =>
    unfold dispatch
    split
    · exact .inr rfl
    · rw [if_neg (fun ht => hn k List.mem_cons_self ((tryHandler_iff k (hg k List.mem_cons_self) comps).1 ht))]
      exact ih (fun h hh => hg h (List.mem_cons_of_mem _ hh)) (fun h hh => hn h (List.mem_cons_of_mem _ hh))

/-- If it is some other handler's, the search comes to its end. -/
theorem dispatch_known (k : Handler) (hk : Good k) (hs : List Handler) (hg : ∀ h ∈ hs, Good h)
    (hn : ∀ h ∈ hs, target k ≠ target h) : dispatch (target k) hs = none := by
  induction hs with
  | nil => rfl
  | cons x xs ih =>
    unfold dispatch
    rw [if_neg (verbIdx_target k x hk),
      if_neg (fun ht => hn x List.mem_cons_self ((tryHandler_iff x (hg x List.mem_cons_self) _).1 ht))]
    exact ih (fun h hh => hg h (List.mem_cons_of_mem _ hh)) (fun h hh => hn h (List.mem_cons_of_mem _ hh))

/-- The registered handlers are those of the interface. -/
theorem handlers_api : handlers.map (fun h => (h.method, '/' :: join '/' (target h), h.rpc)) = Spec.api.reverse := by
  decide +kernel

theorem target_split : handlers.map target = handlers.map fun h => split '/' (join '/' (target h)) := by decide +kernel

theorem target_eq {h : Handler} (hh : h ∈ handlers) : target h = split '/' (join '/' (target h)) :=
  List.map_inj_left.1 target_split h hh

theorem mem_api {m rest : Str} {r : Rpc} :
    (m, '/' :: rest, r) ∈ Spec.api ↔ ∃ h ∈ handlers, h.method = m ∧ h.rpc = r ∧ split '/' rest = target h := by
  rw [← List.mem_reverse, ← handlers_api, List.mem_map]
  constructor
  · rintro ⟨h, hh, he⟩
    simp only [Prod.mk.injEq, List.cons.injEq, true_and] at he
    exact ⟨h, hh, he.1, he.2.2, by rw [← he.2.1]; exact (target_eq hh).symm⟩
  · rintro ⟨h, hh, h1, h2, h3⟩
    refine ⟨h, hh, ?_⟩
    rw [h1, h2, ← h3, join_split]

theorem api_slash {m p : Str} {r : Rpc} (h : (m, p, r) ∈ Spec.api) : ∃ rest, p = '/' :: rest := by
  rw [← List.mem_reverse, ← handlers_api, List.mem_map] at h
  obtain ⟨k, _, he⟩ := h
  simp only [Prod.mk.injEq] at he
  exact ⟨_, he.2.1.symm⟩

/-- No two handlers share a path. -/
theorem target_inj : ∀ h ∈ handlers, ∀ k ∈ handlers, target h = target k → h.rpc = k.rpc ∧ h.method = k.method := by
  have : ∀ h ∈ handlers, ∀ k ∈ handlers, decide (target h = target k → h.rpc = k.rpc ∧ h.method = k.method) = true := by
    have h0 : (handlers.all fun h => handlers.all fun k => decide (target h = target k → h.rpc = k.rpc ∧ h.method = k.method)) = true := by
      decide +kernel
    intro h hh k hk
    exact List.all_eq_true.1 (List.all_eq_true.1 h0 h hh) k hk
  intro h hh k hk
  exact of_decide_eq_true (this h hh k hk)

theorem serve_slash (m ct ov rest : Str) : serve m ct ov ('/' :: rest) =
    match dispatch (split '/' rest) (handlers.filter fun h => h.method = Spec.method m ct ov) with
    | some a => a
    | none =>
      if (handlers.filter fun h => h.method ≠ Spec.method m ct ov).any fun h => tryHandler h (split '/' rest) then .refused 501
      else .refused 404 := by
  have : effectiveMethod m ct ov = Spec.method m ct ov := by
    unfold effectiveMethod Spec.method post
    congr 1
    exact propext ⟨fun ⟨a, b, c⟩ => ⟨b, c, a⟩, fun ⟨a, b, c⟩ => ⟨c, a, b⟩⟩
  simp only [serve, this]
  rfl

end OM.Gw
