import Verif.Lemmas.ProtoJsonWrite
/-!
# Messages as JSON texts
-/
namespace OM.PJ
open OM.Spec

theorem unmarshal_iff {α : Type} {dec : Json → Option α} {R : α → Json → Prop} (h : ∀ v j, dec j = some v ↔ R v j) (t : Str) (v : α) :
    unmarshal dec t = some v ↔ DocJ R v t := by
  unfold unmarshal DocJ
  rw [Option.bind_eq_some_iff]
  simp only [Json.read_iff, h]

theorem readFirst_iff (t : Str) (ms : List (Str × Json)) :
    Json.readFirst t = some (.obj ms) ↔ ∃ w x r, t = w ++ (x ++ r) ∧ Ws w ∧ IsText x ∧ JText (.obj ms) x := by
  unfold Json.readFirst
  constructor
  · intro h
    split at h
    · rename_i j r hv
      split at h
      · rename_i hc
        cases h
        obtain ⟨w, x, rfl, hw, hx⟩ := (Json.read_sound _).1 _ _ _ hv
        exact ⟨w, x, r, rfl, hw, (Wire.utf8Valid_iff _).mp ((Json.utf8Valid_V _).mpr ((Json.jtext_V hx).mpr hc)), hx⟩
      · cases h
    · cases h
  · rintro ⟨w, x, r, rfl, hw, ht, hx⟩
    rw [Json.readValue_of hx _ w r hw (by simp; omega) (fun h => absurd rfl (h ms))]
    simp only
    rw [if_pos ((Json.jtext_V hx).mp ((Json.utf8Valid_V _).mp ((Wire.utf8Valid_iff _).mpr ht)))]

theorem skipWs_nil {t : Str} : Json.skipWs t = [] ↔ Ws t := by
  constructor
  · intro h
    obtain ⟨w, hw, hs⟩ := Json.skipWs_sound t
    rw [h, List.append_nil] at hw
    rwa [hw]
  · intro h
    have := Json.skipWs_append (s := []) h
    rwa [List.append_nil] at this

theorem body_iff {α : Type} {dec : Json → Option α} {R : α → Json → Prop} (h : ∀ v j, dec j = some v ↔ R v j)
    (ho : ∀ v j, R v j → ∃ ms, j = .obj ms) (zero : α) (t : Str) (v : α) :
    Gw.requestOf zero (decodeBody dec t) = .ok v ↔ BodyJ R zero v t := by
  unfold decodeBody BodyJ
  by_cases hw : Json.skipWs t = []
  · rw [if_pos hw]
    have hws := skipWs_nil.mp hw
    constructor
    · intro k
      cases k
      exact .inl ⟨hws, rfl⟩
    · rintro (⟨-, rfl⟩ | ⟨w, x, r, j, rfl, -, -, hx, -⟩)
      · rfl
      · obtain ⟨c, y, rfl, hc, -⟩ := Json.jtext_head hx
        have h1 := hws c (by simp)
        rw [← Json.isWs_iff, hc] at h1
        cases h1
  · rw [if_neg hw]
    constructor
    · intro k
      split at k
      · rename_i v' hv
        cases k
        obtain ⟨j, hj, hd⟩ := Option.bind_eq_some_iff.mp hv
        obtain ⟨ms, rfl⟩ := ho _ _ ((h _ _).mp hd)
        obtain ⟨w, x, r, ht, h1, h2, h3⟩ := (readFirst_iff t ms).mp hj
        exact .inr ⟨w, x, r, _, ht, h1, h2, h3, (h _ _).mp hd⟩
      · cases k
    · rintro (⟨hws, -⟩ | ⟨w, x, r, j, ht, h1, h2, h3, hr⟩)
      · exact absurd (skipWs_nil.mpr hws) hw
      · obtain ⟨ms, rfl⟩ := ho _ _ hr
        rw [(readFirst_iff t ms).mpr ⟨w, x, r, ht, h1, h2, h3⟩, Option.bind_some, (h _ _).mpr hr]
        rfl

/-- Whatever is not accepted is refused with HTTP status 400. -/
theorem body_error {α : Type} (dec : Json → Option α) (zero : α) (t : Str) (h : ∀ v, Gw.requestOf zero (decodeBody dec t) ≠ .ok v) :
    Gw.requestOf zero (decodeBody dec t) = .error 400 := by
  cases hb : decodeBody dec t with
  | eof => rw [hb] at h; exact absurd rfl (h zero)
  | msg a => rw [hb] at h; exact absurd rfl (h a)
  | bad => rfl

theorem marshal_iff {α : Type} {enc : α → Option Json} {ok go : α → Prop} {R : α → Json → Prop} (w : Writes enc ok go R) (html : Bool) (sep : Str) (v : α) :
    (∃ t, marshal enc html sep v = some t) ↔ ok v := by
  rw [← w.exact_]
  unfold marshal
  constructor
  · rintro ⟨t, h⟩
    obtain ⟨j, hj, h⟩ := Option.bind_eq_some_iff.mp h
    split at h
    · rename_i ht; exact ⟨j, hj, ht⟩
    · cases h
  · rintro ⟨j, hj, ht⟩
    exact ⟨_, by rw [hj, Option.bind_some, if_pos ht]⟩

theorem marshal_doc {α : Type} {enc : α → Option Json} {ok go : α → Prop} {R : α → Json → Prop} (w : Writes enc ok go R) {html : Bool} {sep : Str}
    (hs : Ws sep) {v : α} (hg : go v) {t : Str} (h : marshal enc html sep v = some t) : DocJ R v t := by
  obtain ⟨j, hj, h⟩ := Option.bind_eq_some_iff.mp h
  split at h
  · rename_i ht
    cases h
    exact ⟨j, Json.write_doc html hs (w.shape _ _ hj).1 ht, w.means _ _ hj hg⟩
  · cases h

theorem doc_body {α : Type} {R : α → Json → Prop} {zero v : α} {t : Str} (h : DocJ R v t) : BodyJ R zero v t := by
  obtain ⟨j, ⟨ht, w, x, w', rfl, hw, hx, hw'⟩, hr⟩ := h
  refine .inr ⟨w, x, w', j, rfl, hw, ?_, hx, hr⟩
  have h1 := (Json.utf8Valid_V _).mp ((Wire.utf8Valid_iff _).mpr ht)
  rw [Json.V_asciis (Json.ws_ascii hw), Json.V_append_ascii (Json.ws_ascii hw')] at h1
  exact (Wire.utf8Valid_iff _).mp ((Json.utf8Valid_V _).mpr h1)

/-- What the gateway streams of messages that can be written. -/
theorem streamed_all {α : Type} {enc : α → Option Json} {ok go : α → Prop} {R : α → Json → Prop} (w : Writes enc ok go R) (l : List α)
    (h : ∀ v ∈ l, ok v) : (streamed enc l).2 = false ∧ ((∀ v ∈ l, go v) → List.Forall₂ (DocJ R) l (streamed enc l).1) := by
  induction l with
  | nil => exact ⟨rfl, fun _ => .nil⟩
  | cons v l ih =>
    obtain ⟨t, ht⟩ := (marshal_iff w true [] v).mpr (h v (by simp))
    have ih := ih fun x hx => h x (List.mem_cons_of_mem _ hx)
    rw [streamed, ht]
    refine ⟨ih.1, fun hg => .cons ?_ (ih.2 fun x hx => hg x (List.mem_cons_of_mem _ hx))⟩
    exact marshal_doc w (by intro c hc; cases hc) (hg v (by simp)) ht

/-- Up to the first message that cannot be written. -/
theorem streamed_until {α : Type} {enc : α → Option Json} {ok go : α → Prop} {R : α → Json → Prop} (w : Writes enc ok go R) (l : List α) (v : α)
    (l' : List α) (h : ∀ v ∈ l, ok v) (hv : ¬ ok v) : streamed enc (l ++ v :: l') = ((streamed enc l).1, true) := by
  induction l with
  | nil =>
    have : marshal enc true [] v = none := by
      cases hm : marshal enc true [] v with
      | none => rfl
      | some t => exact absurd ((marshal_iff w true [] v).mp ⟨t, hm⟩) hv
    simp only [List.nil_append, streamed, this]
  | cons u l ih =>
    obtain ⟨t, ht⟩ := (marshal_iff w true [] u).mpr (h u (by simp))
    have ih := ih fun x hx => h x (List.mem_cons_of_mem _ hx)
    rw [List.cons_append, streamed, ht, ih, streamed, ht]

end OM.PJ
