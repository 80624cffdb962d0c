import Verif.Spec.OwnBatches
import Verif.Lemmas.System
/-! # Lemmas: the batches that carry the updates of a call -/
namespace OM.Sys
open OM.Spec OM.Props

variable {cd : Codec} {cfg : Config} {H : Nat} {s : St}

/-- A response to a storable update carries a text. -/
theorem respLoop_text_at {us : List StateUpdate} {rs : List Reply}
    (h : ∀ r ∈ rs, (∃ t, r = .str t) ∨ ∃ e, r = .err e ∧ IsText e) (n : Nat) (u : StateUpdate) (r : StateResponse)
    (hu : us[n]? = some u) (hs : Storable u) (hr : (respLoop us rs)[n]? = some r) : TextErr r := by
  induction us generalizing rs n with
  | nil => simp at hu
  | cons v us ih =>
    cases n with
    | zero =>
      simp only [List.getElem?_cons_zero, Option.some.injEq] at hu
      subst hu
      have h1 := respLoop_text (us := [v]) (rs := rs) (by simpa using hs) h
      cases rs with
      | nil =>
        simp only [respLoop, List.getElem?_cons_zero, Option.some.injEq] at hr
        exact h1 r (by simp [respLoop, hr])
      | cons p rs =>
        simp only [respLoop, List.getElem?_cons_zero, Option.some.injEq] at hr
        exact h1 r (by simp [respLoop, hr])
    | succ n =>
      simp only [List.getElem?_cons_succ] at hu
      cases rs with
      | nil =>
        simp only [respLoop, List.getElem?_cons_succ] at hr
        exact ih (rs := []) (by simp) n hu hr
      | cons p rs =>
        simp only [respLoop, List.getElem?_cons_succ] at hr
        exact ih (fun x hx => h x (List.mem_cons_of_mem _ hx)) n hu hr

/-- What `WellSent` says of a batch. -/
def GoodBatch (c : Nat) (env : SendEnv) (b : List Req) : Prop :=
  ∀ pre r post, b = pre ++ r :: post → r.caller = c →
    env.lost = none ∧ (∀ q ∈ pre ++ [r], Storable q.update) ∧ ∀ cm ∈ env.cmds, ∀ e, cm.fail = some e → IsText e

theorem send_own {st : Stream} {env : SendEnv} {c : Nat} (b : List Req) (hg : GoodBatch c env b)
    (hcm : b.length ≤ env.cmds.length) (h0 : ∀ e ∈ st.entries, H ≤ e.1.1) (hp : env.Plausible cfg H) :
    List.Forall₂ (fun q r => q.caller = c →
      Ack (redisSend cfg env st (b.map (·.update))).1.entries st.entries.length q.update r ∧ TextErr r)
      b (redisSend cfg env st (b.map (·.update))).2 := by
  rw [List.forall₂_iff_get]
  refine ⟨by rw [redisSend_length]; simp, fun n h1 h2 hc => ?_⟩
  have hsplit : b = b.take n ++ b[n] :: b.drop (n + 1) := by simp
  obtain ⟨hlost, hst, htx⟩ := hg _ _ _ hsplit hc
  generalize hr : (redisSend cfg env st (b.map (·.update))).2.get ⟨n, h2⟩ = r
  have hget : (redisSend cfg env st (b.map (·.update))).2[n]? = some r := by
    rw [← hr]; simp
  have hsplit' : b.map (·.update) = (b.take n).map (·.update) ++ b[n].update :: (b.drop (n + 1)).map (·.update) := by
    have := congrArg (List.map (·.update)) hsplit
    rwa [List.map_append, List.map_cons] at this
  have hpl : ((b.take n).map (·.update)).length = n := by simp; omega
  refine ⟨fun herr => ?_, ?_⟩
  · obtain ⟨id, a, b', f, e1, e2, e3⟩ := C10_redis_id_is_stored_id_partial cfg env H st ((b.take n).map (·.update)) b[n].update
      ((b.drop (n + 1)).map (·.update))
      (fun v hv => by
        obtain ⟨q, hq, rfl⟩ := List.mem_map.1 hv
        exact hst q (List.mem_append_left _ hq)) (hst _ (List.mem_append_right _ (List.mem_singleton.2 rfl))) hlost
      (by rw [← hsplit']; simpa using hcm) h0 hp r (by rw [← hsplit', hpl]; exact hget) herr
    rw [← hsplit'] at e1
    refine ⟨(st.entries ++ a).length, (id, f), by simp, ?_, e2.symm, e3⟩
    rw [e1]
    simp
  · have hu : (b.map (·.update))[n]? = some b[n].update := by simp [h1]
    unfold redisSend at hget
    rw [hlost] at hget
    exact respLoop_text_at (execCmds_text htx) n _ r hu (hst _ (List.mem_append_right _ (List.mem_singleton.2 rfl))) hget

theorem zip_filter_own {R : StateUpdate → StateResponse → Prop} (c : Nat) (b : List Req) (rs : List StateResponse)
    (h : List.Forall₂ (fun q r => q.caller = c → R q.update r) b rs) :
    List.Forall₂ R ((b.filter fun r => decide (r.caller = c)).map (·.update))
      ((((b.map (·.caller)).zip rs).filter fun d => decide (d.1 = c)).map (·.2)) := by
  induction h with
  | nil => exact .nil
  | @cons q r b rs h1 h2 ih =>
    simp only [List.map_cons, List.zip_cons_cons, List.filter_cons]
    by_cases hc : q.caller = c
    · simp only [hc, decide_true, if_true, List.map_cons]
      exact .cons (h1 hc) ih
    · simp only [hc, decide_false, Bool.false_eq_true, if_false]
      exact ih

/-- The answers that call `c` has so far are true. -/
structure Own (s : St) (c : Nat) : Prop where
  ack : ∀ x, s.calls c = some x →
    List.Forall₂ (Ack s.stream.entries x.since) (x.updates.take x.got.length) x.got
  txt : ∀ x, s.calls c = some x → ∀ r ∈ x.got, TextErr r

theorem own_init (c : Nat) : Own init c := ⟨fun x h => by simp [init] at h, fun x h => by simp [init] at h⟩

theorem Own.acksOf {c : Nat} (h : Own s c) {x : Call} (hx : s.calls c = some x) (hi : ReadableIds x.rpc) : AcksOf s c := by
  refine ⟨h.ack, fun y cmd ids hy hr id hid => ?_, h.txt⟩
  rw [hx] at hy; injection hy with hy; subst hy
  rw [hr] at hi
  exact hi id hid

/-- The call keeps its updates, responses and beginning; the stream grows. -/
theorem own_calls {c : Nat} (h : Own s c) (s' : St) (hst : ∃ more, s'.stream.entries = s.stream.entries ++ more)
    (hc : ∀ x, s'.calls c = some x → (x.got = [] ∧ x.updates.take 0 = []) ∨
      ∃ y, s.calls c = some y ∧ y.updates = x.updates ∧ y.got = x.got ∧ y.since = x.since) : Own s' c := by
  obtain ⟨more, hm⟩ := hst
  refine ⟨fun x hx => ?_, fun x hx => ?_⟩
  · rcases hc x hx with ⟨h1, -⟩ | ⟨y, h1, h2, h3, h4⟩
    · rw [h1]; exact .nil
    · rw [hm, ← h2, ← h3, ← h4]; exact (h.ack y h1).imp fun _ _ => Ack.mono
  · rcases hc x hx with ⟨h1, -⟩ | ⟨y, h1, -, h3, -⟩
    · rw [h1]; simp
    · rw [← h3]; exact h.txt y h1

theorem own_same {c : Nat} (h : Own s c) (s' : St) (hst : s'.stream = s.stream) (hc : s'.calls c = s.calls c) : Own s' c :=
  ⟨fun x hx => by rw [hst]; exact h.ack x (hc ▸ hx), fun x hx => h.txt x (hc ▸ hx)⟩

theorem own_kill {c : Nat} (h : Own s c) (i : Nat) : Own (s.kill i) c := by
  refine own_calls h _ ⟨[], by simp [St.kill]⟩ fun x hx => Or.inr ?_
  obtain ⟨y, hy, rfl⟩ := Option.map_eq_some_iff.1 hx
  refine ⟨y, hy, ?_⟩
  split <;> simp

theorem own_flushed {c : Nat} (hb : Base cd cfg H s) (h : Own s c) (i : Nat) (env : SendEnv) (hp : env.Plausible cfg H)
    (hg : GoodBatch c env (s.insts i).pending) (hcm : (s.insts i).pending.length ≤ env.cmds.length) :
    Own (flushed cfg s i env (s.insts i).pending) c := by
  obtain ⟨added, ha, -⟩ := send_fields (cfg := cfg) (env := env) ((s.insts i).pending.map (·.update)) (hb.read 0).ms hp
  have hsend := send_own (cfg := cfg) (H := H) (st := s.stream) _ hg hcm (hb.read 0).ms hp
  have hcall : (flushed cfg s i env (s.insts i).pending).calls c = (s.calls c).map fun x => { x with got := x.got ++
      ((((s.insts i).pending.map (·.caller)).zip (redisSend cfg env s.stream ((s.insts i).pending.map (·.update))).2).filter fun d => decide (d.1 = c)).map (·.2) } := rfl
  have hst : (flushed cfg s i env (s.insts i).pending).stream =
    (redisSend cfg env s.stream ((s.insts i).pending.map (·.update))).1 := rfl
  refine ⟨fun x hx => ?_, fun x hx => ?_⟩
  · rw [hcall] at hx
    obtain ⟨y, hy, rfl⟩ := Option.map_eq_some_iff.1 hx
    rw [hst]
    dsimp only
    have hold' : List.Forall₂ (Ack (redisSend cfg env s.stream ((s.insts i).pending.map (·.update))).1.entries y.since)
        (y.updates.take y.got.length) y.got := by
      rw [ha]; exact (h.ack y hy).imp fun _ _ => Ack.mono
    have hnew := zip_filter_own
      (R := Ack (redisSend cfg env s.stream ((s.insts i).pending.map (·.update))).1.entries y.since) c _ _
      (hsend.imp fun q r hqr hc hr => by
        obtain ⟨n, e, e1, e2⟩ := (hqr hc).1 hr
        exact ⟨n, e, Nat.le_trans (hb.since c y hy) e1, e2⟩)
    have hlen := zip_filter_length (s.insts i).pending
      (redisSend cfg env s.stream ((s.insts i).pending.map (·.update))).2 (by rw [redisSend_length]; simp) c
    by_cases hl : y.inst = i ∧ y.outcome = none
    · obtain ⟨-, ans, l2, l3⟩ := hb.live c y hy hl.2
      rw [hl.1] at l2
      have t1 : y.updates.take y.got.length = ans := by
        rw [l2, ← l3, List.append_assoc, List.take_left]
      have t2 : y.updates.take (y.got ++ ((((s.insts i).pending.map (·.caller)).zip
          (redisSend cfg env s.stream ((s.insts i).pending.map (·.update))).2).filter
          fun d => decide (d.1 = c)).map (·.2)).length =
          ans ++ ((s.insts i).pending.filter fun r => decide (r.caller = c)).map (·.update) := by
        rw [l2]
        apply List.take_left'
        simp only [List.length_append, List.length_map, hlen, l3]
      rw [t1] at hold'
      rw [t2]
      exact List.rel_append hold' hnew
    · have hnil : (s.insts i).pending.filter (fun r => decide (r.caller = c)) = [] := by
        rw [List.filter_eq_nil_iff]
        intro r hr hrc
        obtain ⟨z, hz, hz2⟩ := hb.pend i r hr
        have hrc' : r.caller = c := by simpa using hrc
        rw [hrc', hy] at hz
        injection hz with hz; subst hz
        exact hl hz2
      rw [hnil] at hlen
      have := List.length_eq_zero_iff.1 hlen
      rw [this]
      simpa using hold'
  · rw [hcall] at hx
    obtain ⟨y, hy, rfl⟩ := Option.map_eq_some_iff.1 hx
    intro r hr
    rcases List.mem_append.1 hr with hr | hr
    · exact h.txt y hy r hr
    · have ht := zip_filter_own (R := fun _ r => TextErr r) c _ _ (hsend.imp fun q r hqr hc => (hqr hc).2)
      exact (List.forall₂_iff_get.1 ht).elim fun _ hall => by
        obtain ⟨n, hn, rfl⟩ := List.getElem_of_mem hr
        exact hall n (by rw [(List.forall₂_iff_get.1 ht).1]; exact hn) hn

/-- Which of the two a request does. -/
theorem outgoing_recv (cfg : Config) (s : St) (i : Nat) (env : SendEnv) (r : Req)
    (h : ¬ cfg.outThreshold ≤ (((s.insts i).pending ++ [r]).length : Int)) :
    outgoing cfg s i env (.recv r) = hold s i ((s.insts i).pending ++ [r]) := by
  unfold outgoing
  simp only [outStep]
  rw [if_neg (by simpa using h)]
  exact give_nil _

theorem own_step {c : Nat} (hb : Base cd cfg H s) (h : Own s c) (l : Label) (hp : l.Plausible cfg H)
    (hw : WellSent cfg c s l) (s' : St) (hs : step cd cfg s l = some s') : Own s' c := by
  cases l with
  | call d i rpc =>
    simp only [step] at hs
    split at hs
    · injection hs with hs; subst hs
      refine own_calls h _ ⟨[], by simp [St.setCall]⟩ fun x hx => ?_
      simp only [St.setCall] at hx
      split at hx
      · injection hx with hx; subst hx
        left
        cases rpc.queue cd cfg <;> simp
      · exact Or.inr ⟨x, hx, rfl, rfl, rfl⟩
    · simp at hs
  | submit d env =>
    simp only [step] at hs
    cases hx : s.calls d with
    | none => simp [hx] at hs
    | some x =>
      simp only [hx] at hs
      cases ht : x.todo with
      | nil => simp [ht] at hs
      | cons u rest =>
        simp only [ht] at hs
        split at hs
        · rename_i hg
          injection hs with hs; subst hs
          have hb' := base_hold hb d x hx (by simpa using hg.1) u rest ht
          have ha' : Own (hold (s.setCall d { x with todo := rest }) x.inst ((s.insts x.inst).pending ++ [⟨d, u⟩])) c := by
            refine own_calls h _ ⟨[], by simp [hold, St.setInst, St.setCall]⟩ fun y hy => Or.inr ?_
            simp only [hold, St.setInst, St.setCall] at hy
            split at hy
            · rename_i hd; injection hy with hy; subst hy; exact ⟨x, by rw [hd]; exact hx, rfl, rfl, rfl⟩
            · exact ⟨y, hy, rfl, rfl, rfl⟩
          by_cases hthr : cfg.outThreshold ≤ (((s.insts x.inst).pending ++ [(⟨d, u⟩ : Req)]).length : Int)
          · have hgb := hw env ((s.insts x.inst).pending ++ [⟨d, u⟩]) (by simp only [sends, hx, ht]; rw [if_pos ⟨hg.1, hthr⟩])
            rcases outgoing_cases cfg (s.setCall d { x with todo := rest }) x.inst env (.recv ⟨d, u⟩) with e | e
            · rw [e]; exact ha'
            · rw [e, ← flushed_hold]
              refine own_flushed hb' ha' x.inst env hp ?_ ?_
              · simpa [hold, St.setInst, St.setCall, held, GoodBatch] using hgb
              · simp [hold, St.setInst, St.setCall]
                exact hg.2
          · rw [outgoing_recv cfg (s.setCall d { x with todo := rest }) x.inst env ⟨d, u⟩ hthr]
            exact ha'
        · simp at hs
  | timeout i env =>
    simp only [step] at hs
    split at hs
    · rename_i hg
      injection hs with hs; subst hs
      rcases outgoing_cases cfg s i env .timeout with e | e
      · rw [e]; exact own_same h _ rfl rfl
      · rw [e]; exact own_flushed hb h i env hp (hw env _ rfl) hg.2
    · simp at hs
  | finish d order =>
    simp only [step] at hs
    cases hx : s.calls d with
    | none => simp [hx] at hs
    | some x =>
      simp only [hx] at hs
      split at hs
      · obtain ⟨o, -, rfl⟩ := Option.map_eq_some_iff.1 hs
        refine own_calls h _ ⟨[], by simp [St.setCall]⟩ fun y hy => Or.inr ?_
        simp only [St.setCall] at hy
        split at hy
        · rename_i hd; injection hy with hy; subst hy; exact ⟨x, by rw [hd]; exact hx, rfl, rfl, rfl⟩
        · exact ⟨y, hy, rfl, rfl, rfl⟩
      · simp at hs
  | poll i =>
    simp only [step] at hs
    split at hs
    · split at hs
      · injection hs with hs; subst hs
        exact own_same (own_kill h i) _ rfl rfl
      · injection hs with hs; subst hs; exact own_same h _ rfl rfl
    · simp at hs
  | pollLag i k =>
    simp only [step] at hs
    split at hs
    · split at hs
      · injection hs with hs; subst hs
        exact own_same (own_kill h i) _ rfl rfl
      · injection hs with hs; subst hs; exact own_same h _ rfl rfl
    · simp at hs
  | apply i =>
    simp only [step] at hs
    split at hs
    · split at hs
      · simp at hs
      · injection hs with hs; subst hs; exact own_same h _ rfl rfl
    · simp at hs
  | expire i cy =>
    simp only [step] at hs
    split at hs
    · split at hs
      · injection hs with hs; subst hs; exact own_same h _ rfl rfl
      · simp at hs
    · simp at hs
  | crash i =>
    simp only [step] at hs
    split at hs
    · injection hs with hs; subst hs; exact own_kill h i
    · simp at hs
  | crashMid i env k =>
    simp only [step] at hs
    split at hs
    · injection hs with hs; subst hs
      obtain ⟨added, ha, -⟩ := send_fields (cfg := cfg) (env := { env with lost := some k })
        ((s.insts i).pending.map (·.update)) (hb.read 0).ms hp
      exact own_kill (own_calls h { s with stream := execPart cfg env s.stream ((s.insts i).pending.map Req.update) k }
        ⟨added, ha⟩ fun x hx => Or.inr ⟨x, hx, rfl, rfl, rfl⟩) i
    · simp at hs
  | start i =>
    simp only [step] at hs
    split at hs
    · simp at hs
    · injection hs with hs; subst hs; exact own_same h _ rfl rfl

theorem own_run {c : Nat} (ls : List Label) : ∀ {s : St}, Base cd cfg H s → Own s c → (∀ l ∈ ls, l.Plausible cfg H) →
    Along cd cfg (WellSent cfg c) s ls → ∀ s', run cd cfg s ls = some s' → Own s' c := by
  induction ls with
  | nil => intro s _ h2 _ _ s' hs; injection hs with hs; subst hs; exact h2
  | cons l ls ih =>
    intro s h h2 hp hw s' hs
    obtain ⟨s1, h1, hs⟩ := Option.bind_eq_some_iff.1 hs
    exact ih (base_step h l (hp l (by simp)) s1 h1) (own_step h h2 l (hp l (by simp)) hw.1 s1 h1)
      (fun l hl => hp l (by simp [hl])) (hw.2 s1 h1) s' hs

end OM.Sys
