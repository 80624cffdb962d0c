import Verif.Props.Mmf
/-! # Property C55, exactly: which clients crash an MMF -/
namespace OM.Props
open OM.Spec OM.Mmf

/-- The pools a stream names, in the order they arrive. -/
def named (msgs : List ChunkedMmfRunRequest) : List (Str × Pool) := msgs.flatMap fun m => (m.profile.map (·.pools)).getD []

/-- A pool first named without participants is named again. -/
def Renamed (l : List (Str × Pool)) : Prop :=
  ∃ pre e post, l = pre ++ e :: post ∧ e.2.participants = none ∧ (∀ x ∈ pre, x.1 ≠ e.1) ∧ ∃ x ∈ post, x.1 = e.1

private def Bare (acc : GoMap Pool) (k : Str) : Prop := ∃ q, acc.load k = some q ∧ q.participants = none

private theorem mergePool_none (acc : GoMap Pool) (e : Str × Pool) : mergePool acc e = none ↔ Bare acc e.1 := by
  unfold mergePool Bare
  cases h : acc.load e.1 with
  | none => simp
  | some q => cases hq : q.participants <;> simp [hq, Go.panic]

private theorem mergePool_some {acc acc' : GoMap Pool} {e : Str × Pool} (h : mergePool acc e = some acc') (k : Str) :
    (acc'.load k = none ↔ acc.load k = none ∧ k ≠ e.1) ∧
    (Bare acc' k ↔ Bare acc k ∨ (k = e.1 ∧ acc.load k = none ∧ e.2.participants = none)) := by
  unfold mergePool at h
  unfold Bare
  cases hl : acc.load e.1 with
  | none =>
    simp only [hl] at h
    cases h
    rw [GoMap.load_store]
    by_cases hk : k = e.1
    · subst hk; simp [hl]
    · simp [hk]
  | some q =>
    simp only [hl] at h
    cases hq : q.participants with
    | none => simp [hq, Go.panic] at h
    | some r =>
      simp only [hq] at h
      cases h
      rw [GoMap.load_store]
      by_cases hk : k = e.1
      · subst hk; simp [hl, hq]
      · simp [hk]

private theorem fold_none (l : List (Str × Pool)) : ∀ acc : GoMap Pool, l.foldlM mergePool acc = none ↔
    (∃ x ∈ l, Bare acc x.1) ∨ ∃ pre e post, l = pre ++ e :: post ∧ e.2.participants = none ∧ acc.load e.1 = none ∧
      (∀ x ∈ pre, x.1 ≠ e.1) ∧ ∃ x ∈ post, x.1 = e.1 := by
  induction l with
  | nil => intro acc; simp
  | cons a l ih =>
    intro acc
    rw [List.foldlM_cons]
    cases hm : mergePool acc a with
    | none =>
      have := (mergePool_none acc a).1 hm
      exact ⟨fun _ => .inl ⟨a, by simp, this⟩, fun _ => rfl⟩
    | some acc' =>
      have hb : ¬ Bare acc a.1 := fun h => by rw [(mergePool_none acc a).2 h] at hm; cases hm
      show l.foldlM mergePool acc' = none ↔ _
      rw [ih acc']
      constructor
      · rintro (⟨x, hx, hbx⟩ | ⟨pre, e, post, rfl, hp, hl, hpre, x, hx, hxe⟩)
        · rcases ((mergePool_some hm x.1).2).1 hbx with h | ⟨h1, h2, h3⟩
          · exact .inl ⟨x, by simp [hx], h⟩
          · exact .inr ⟨[], a, l, rfl, h3, h1 ▸ h2, by simp, x, hx, h1⟩
        · obtain ⟨h1, h2⟩ := ((mergePool_some hm e.1).1).1 hl
          refine .inr ⟨a :: pre, e, post, rfl, hp, h1, ?_, x, hx, hxe⟩
          intro y hy
          rcases List.mem_cons.1 hy with rfl | hy
          · exact fun h => h2 h.symm
          · exact hpre y hy
      · rintro (⟨x, hx, hbx⟩ | ⟨pre, e, post, heq, hp, hl, hpre, x, hx, hxe⟩)
        · rcases List.mem_cons.1 hx with rfl | hx
          · exact absurd hbx hb
          · exact .inl ⟨x, hx, ((mergePool_some hm x.1).2).2 (.inl hbx)⟩
        · cases pre with
          | nil =>
            simp only [List.nil_append, List.cons.injEq] at heq
            obtain ⟨rfl, rfl⟩ := heq
            exact .inl ⟨x, hx, ((mergePool_some hm x.1).2).2 (.inr ⟨hxe, hxe ▸ hl, hp⟩)⟩
          | cons b pre =>
            simp only [List.cons_append, List.cons.injEq] at heq
            obtain ⟨rfl, rfl⟩ := heq
            exact .inr ⟨pre, e, post, rfl, hp, ((mergePool_some hm e.1).1).2 ⟨hl, fun h => hpre a (by simp) h.symm⟩,
              fun y hy => hpre y (by simp [hy]), x, hx, hxe⟩

private theorem chunks_fold (msgs : List ChunkedMmfRunRequest) : ∀ (i : Nat) (acc : GoMap Pool), i + msgs.length < 2 ^ 31 →
    (∀ (j : Nat) (m : ChunkedMmfRunRequest), msgs[j]? = some m → m.numChunks ≠ ((i + j : Nat) : Int)) →
    getChunks i acc msgs = ((named msgs).foldlM mergePool acc).map fun _ => (.err, []) := by
  induction msgs with
  | nil => intro i acc hi _; unfold getChunks; rw [if_neg (by simp at hi; omega)]; rfl
  | cons m rest ih =>
    intro i acc hi hn
    simp only [List.length_cons] at hi
    unfold getChunks
    rw [if_neg (by omega)]
    unfold named
    rw [List.flatMap_cons, List.foldlM_append]
    dsimp only
    cases h1 : List.foldlM mergePool acc ((m.profile.map (·.pools)).getD []) with
    | none => rfl
    | some acc' =>
      dsimp only
      rw [if_neg (by simpa using hn 0 m rfl)]
      refine ih (i + 1) acc' (by omega) fun j x hx => ?_
      have := hn (j + 1) x (by simpa using hx)
      rwa [show i + 1 + j = i + (j + 1) by omega]

/-- **C55 (exactly).** Of the streams that fail before the completing chunk, those of any client crash
the MMFs exactly when a pool first named without participants is named again; otherwise each MMF
ends without a match, an error or a panic. -/
theorem C55_exactly (ok : Nat → Bool) (t : Str) (times : Nat → Str) (now : Nat → Timestamp)
    (ord : GoMap Pool → GoMap Pool) (hord : ∀ m, (ord m).Perm m) (msgs : List ChunkedMmfRunRequest)
    (hlen : msgs.length < 2 ^ 31 - 1) (hi : Incomplete msgs) :
    (Renamed (named msgs) → ∀ r ∈ mmfRuns ok t times now ord msgs, r = none) ∧
    (¬ Renamed (named msgs) → ∀ r ∈ mmfRuns ok t times now ord msgs, r = some ⟨[], false⟩) := by
  have hg : getChunkedRequest msgs = ((named msgs).foldlM mergePool []).map fun _ => (.err, []) := by
    apply chunks_fold msgs 1 [] (by omega)
    intro j m hm
    have := hi j m hm
    rw [show ((1 + j : Nat) : Int) = (j : Int) + 1 by omega]
    exact this
  have hr : (named msgs).foldlM mergePool [] = none ↔ Renamed (named msgs) := by
    rw [fold_none]
    constructor
    · rintro (⟨x, -, q, hq, -⟩ | ⟨pre, e, post, a, b, -, c, d⟩)
      · cases hq
      · exact ⟨pre, e, post, a, b, c, d⟩
    · rintro ⟨pre, e, post, a, b, c, d⟩
      exact .inr ⟨pre, e, post, a, b, rfl, c, d⟩
  constructor
  · intro h r hrm
    rw [hr.2 h] at hg
    simp only [mmfRuns, withRequest, hg, List.mem_cons, List.not_mem_nil, or_false] at hrm
    rcases hrm with rfl | rfl | rfl <;> rfl
  · intro h
    cases hf : (named msgs).foldlM mergePool [] with
    | none => exact absurd (hr.1 hf) h
    | some acc => exact no_request ok t times now ord hord msgs [] (by rw [hg, hf]; rfl)

/-- A crashing client, and one that is fine although a pool has no participants. -/
example :
    let bare : ChunkedMmfRunRequest := ⟨some { name := [], extensions := [], pools := [("a".toList, default)] }, 9⟩
    let other : ChunkedMmfRunRequest := ⟨some { name := [], extensions := [], pools := [("b".toList, default)] }, 9⟩
    Renamed (named [bare, other, bare]) ∧ Incomplete [bare, other, bare] ∧ ¬ Renamed (named [bare, other]) ∧
      ¬ HaveParticipants [bare, other] := by
  intro bare other
  refine ⟨⟨[], ("a".toList, default), [("b".toList, default), ("a".toList, default)], rfl, rfl, by simp,
    ("a".toList, default), by simp, rfl⟩, ?_, ?_, ?_⟩
  · intro j m hm
    match j, hm with
    | 0, hm => cases hm; decide
    | 1, hm => cases hm; decide
    | 2, hm => cases hm; decide
    | j + 3, hm => simp at hm
  · rintro ⟨pre, e, post, h, -, -, x, hx, hxe⟩
    have h : [("a".toList, (default : Pool)), ("b".toList, default)] = pre ++ e :: post := h
    match pre, h with
    | [], h =>
      simp only [List.nil_append, List.cons.injEq] at h
      obtain ⟨rfl, rfl⟩ := h
      simp only [List.mem_singleton] at hx
      subst hx
      exact absurd hxe (by decide)
    | [_], h =>
      simp only [List.cons_append, List.nil_append, List.cons.injEq] at h
      rw [← h.2.2] at hx; cases hx
    | _ :: _ :: pre, h => have := congrArg List.length h; simp at this
  · intro h
    exact absurd (h bare (by simp) _ rfl ("a".toList, default) (by simp)) (by decide)

end OM.Props
