import Verif.Spec.LogLines
import Verif.Lemmas.Config
import Verif.Props.Logging
/-!
# Properties C151 and C153: what reading the configuration writes to the log; which records appear (C68)
-/
namespace OM.Props
open OM.Spec OM.LogL

private def levelKey : Str := "OM_LOGGING_LEVEL".toList
private def passKey : Str := "OM_REDIS_WRITE_PASSWORD".toList

/-- OM_LOGGING_LEVEL is `v`. -/
def SaysLevel (env : GoMap Str) (v : Str) : Prop := SaysText env "OM_LOGGING_LEVEL".toList "info".toList v

private theorem level_default : Conf.defaults.load levelKey = some (.str "info".toList) := by decide +kernel

private theorem level_text {env : GoMap Str} {v : Str} (h : SaysLevel env v) : Conf.getString env levelKey = v := by
  rcases h with ⟨h, hv⟩ | ⟨hu, rfl⟩
  · exact congrArg Conf.toStr (Conf.get_set h hv)
  · exact congrArg Conf.toStr ((Conf.get_unset hu).trans level_default)

private theorem level_says (env : GoMap Str) : SaysLevel env (Conf.getString env levelKey) := by
  cases h : env.load levelKey with
  | none =>
    refine .inr ⟨.inl h, ?_⟩
    rw [Conf.getString, Conf.get_unset (.inl h)]
    exact congrArg Conf.toStr level_default
  | some v =>
    cases v with
    | nil =>
      refine .inr ⟨.inr h, ?_⟩
      rw [Conf.getString, Conf.get_unset (.inr h)]
      exact congrArg Conf.toStr level_default
    | cons c v =>
      refine .inl ?_
      rw [Conf.getString, Conf.get_set h (by simp)]
      exact ⟨h, by simp [Conf.toStr]⟩

private theorem debug_level {env : GoMap Str} (h : SaysLevel env "debug".toList) : configLevel env = .debug := by
  rw [configLevel, show Conf.getString env "OM_LOGGING_LEVEL".toList = _ from level_text h]
  decide +kernel

/-- With the level "debug", all records appear. -/
private theorem debug_log {t : Str} {env : GoMap Str} (h : SaysLevel env "debug".toList) (ss : List (Str × Str)) :
    configLog t env ss =
      [⟨.warn, t, "Trace logging level configured. Not recommended for production!".toList, []⟩,
        ⟨.debug, t, "configuration:".toList, configFields⟩] ++ ss.map fun x => ⟨.debug, t, settingText x, configFields⟩ := by
  rw [configLog, configRecords, debug_level h, show Conf.getString env "OM_LOGGING_LEVEL".toList = _ from level_text h, if_pos rfl,
    if_pos (show Log.isDebugLevel .debug = true from rfl)]
  unfold printed
  rw [List.filter_eq_self.mpr]
  · rfl
  · intro r hr
    simp only [List.mem_append, List.mem_cons, List.not_mem_nil, or_false, List.mem_map] at hr
    rcases hr with (rfl | rfl) | ⟨x, -, rfl⟩ <;> rfl

/-- With any other, no setting does. -/
private theorem other_log {t : Str} {env : GoMap Str} (h : ¬ SaysLevel env "debug".toList) (ss : List (Str × Str)) :
    configLog t env ss = printed (configLevel env)
      ((if Log.isDebugLevel (configLevel env) then
          [⟨.warn, t, "Trace logging level configured. Not recommended for production!".toList, []⟩] else []) ++
        [⟨.debug, t, "configuration:".toList, configFields⟩]) := by
  have hn : ¬ Conf.getString env "OM_LOGGING_LEVEL".toList = "debug".toList := fun he => h (he ▸ level_says env)
  rw [configLog, configRecords, if_neg hn, List.append_nil]

/-! ## C151 -/

/-- What should hold: nothing that is written depends on a password. -/
def C151_statement : Prop :=
  ∀ (t : Str) (env env' : GoMap Str) (out : List Record), SameButSecrets env env' → ConfigLogged t env out → ConfigLogged t env' out

/-- **C151 (what is written).** With OM_LOGGING_LEVEL=debug every start writes both passwords to the log. -/
theorem C151_passwords_shown (t : Str) (env : GoMap Str) (out : List Record) (w r : Str) (h : SaysLevel env "debug".toList)
    (hw : SaysText env "OM_REDIS_WRITE_PASSWORD".toList "om-redis".toList w)
    (hr : SaysText env "OM_REDIS_READ_PASSWORD".toList "om-redis".toList r) (ho : ConfigLogged t env out) :
    (∃ x ∈ out, x.msg = "  om_redis_write_password: ".toList ++ w) ∧ ∃ x ∈ out, x.msg = "  om_redis_read_password: ".toList ++ r := by
  obtain ⟨ss, hp, rfl⟩ := ho
  rw [debug_log h]
  have text : ∀ (k n v : Str), (k, Conf.Val.str "om-redis".toList) ∈ Conf.defaults →
      Conf.defaults.load k = some (.str "om-redis".toList) → Log.lowerAscii k = n → SaysText env k "om-redis".toList v →
      ∃ x ∈ [(⟨.warn, t, "Trace logging level configured. Not recommended for production!".toList, []⟩ : Record),
        ⟨.debug, t, "configuration:".toList, configFields⟩] ++ ss.map fun x => ⟨.debug, t, settingText x, configFields⟩,
        x.msg = "  ".toList ++ n ++ ": ".toList ++ v := by
    intro k n v hk hd hn hs
    have hv : Conf.toStr (Conf.get env k) = v := by
      rcases hs with ⟨h, hv⟩ | ⟨hu, rfl⟩
      · rw [Conf.get_set h hv]; rfl
      · rw [Conf.get_unset hu, hd]; rfl
    refine ⟨_, List.mem_append_right _ (List.mem_map_of_mem (hp.mem_iff.mpr (List.mem_map_of_mem hk))), ?_⟩
    rw [← hn, ← hv]; rfl
  refine ⟨?_, ?_⟩
  · have := text "OM_REDIS_WRITE_PASSWORD".toList "om_redis_write_password".toList w (by decide +kernel) (by decide +kernel) (by decide +kernel) hw
    simpa using this
  · have := text "OM_REDIS_READ_PASSWORD".toList "om_redis_read_password".toList r (by decide +kernel) (by decide +kernel) (by decide +kernel) hr
    simpa using this

example : SaysLevel [("OM_LOGGING_LEVEL".toList, "debug".toList)] "debug".toList ∧
    SaysText [("OM_LOGGING_LEVEL".toList, "debug".toList)] "OM_REDIS_WRITE_PASSWORD".toList "om-redis".toList "om-redis".toList :=
  ⟨.inl ⟨by decide +kernel, by decide +kernel⟩, .inr ⟨.inl (by decide +kernel), rfl⟩⟩

private theorem names_colon : ∀ x ∈ Conf.defaults, ':' ∉ Log.lowerAscii x.1 := by decide +kernel

private theorem cut_colon : ∀ {a b v w : Str}, ':' ∉ a → ':' ∉ b → a ++ ':' :: v = b ++ ':' :: w → a = b ∧ v = w
  | [], [], _, _, _, _, e => ⟨rfl, (List.cons.inj e).2⟩
  | [], c :: b, _, _, _, hb, e => absurd ((List.cons.inj e).1 ▸ List.mem_cons_self) hb
  | c :: a, [], _, _, ha, _, e => absurd ((List.cons.inj e).1 ▸ List.mem_cons_self) ha
  | c :: a, d :: b, v, w, ha, hb, e => by
    rw [List.cons_append, List.cons_append, List.cons.injEq] at e
    obtain ⟨rfl, e⟩ := e
    obtain ⟨rfl, rfl⟩ := cut_colon (fun h => ha (List.mem_cons_of_mem _ h)) (fun h => hb (List.mem_cons_of_mem _ h)) e
    exact ⟨rfl, rfl⟩

private theorem settingText_inj {x y : Str × Str} (hx : ':' ∉ x.1) (hy : ':' ∉ y.1) (h : settingText x = settingText y) : x = y := by
  unfold settingText at h
  have e : x.1 ++ ':' :: (' ' :: x.2) = y.1 ++ ':' :: (' ' :: y.2) := by simpa using h
  obtain ⟨h1, h2⟩ := cut_colon hx hy e
  exact Prod.ext h1 (List.cons.inj h2).2

private theorem settings_colon {env : GoMap Str} {x : Str × Str} (h : x ∈ settings env) : ':' ∉ x.1 := by
  obtain ⟨y, hy, rfl⟩ := List.mem_map.mp h
  exact names_colon y hy

private theorem lower_pass : ∀ x ∈ Conf.defaults, Log.lowerAscii x.1 = Log.lowerAscii passKey → x.1 = passKey := by decide +kernel

/-- **C151, exactly.** Partial: the full claim is `C151_statement`.  What reading the configuration writes
is independent of the passwords if and only if OM_LOGGING_LEVEL is not "debug" (in small letters: "Debug"
and "trace" keep them out of the log). -/
theorem C151_exact_partial (t : Str) (env : GoMap Str) :
    (∀ env' out, SameButSecrets env env' → (ConfigLogged t env out ↔ ConfigLogged t env' out)) ↔ ¬ SaysLevel env "debug".toList := by
  have secret : levelKey ∉ secretKeys := by decide +kernel
  constructor
  · intro h hd
    -- another password
    let p := Conf.toStr (Conf.get env passKey)
    let env' : GoMap Str := (passKey, p ++ ['x']) :: env
    have hs : SameButSecrets env env' := by
      intro k hk
      have : passKey ≠ k := by rintro rfl; exact hk (by decide +kernel)
      simp only [env', GoMap.load_cons, if_neg this]
    have hd' : SaysLevel env' "debug".toList := by
      have := hs levelKey secret
      unfold SaysLevel SaysText Unset at hd ⊢
      rw [show env'.load "OM_LOGGING_LEVEL".toList = env.load "OM_LOGGING_LEVEL".toList from this.symm]
      exact hd
    obtain ⟨ss, hp, he⟩ := (h env' _ hs).mp ⟨settings env, .refl _, rfl⟩
    rw [debug_log hd, debug_log hd'] at he
    have hm := congrArg (fun l : List Record => l.map (·.msg)) he
    simp only [List.map_append, List.append_cancel_left_eq, List.map_map] at hm
    have hin : settingText (Log.lowerAscii passKey, p) ∈ List.map ((fun x : Record => x.msg) ∘ fun x => ⟨.debug, t, settingText x, configFields⟩) ss := by
      rw [← hm]
      refine List.mem_map.mpr ⟨(Log.lowerAscii passKey, p), List.mem_map.mpr ⟨(passKey, .str "om-redis".toList), by decide +kernel, rfl⟩, rfl⟩
    obtain ⟨y, hy, hye⟩ := List.mem_map.mp hin
    have hy := hp.mem_iff.mp hy
    have hcol : ':' ∉ Log.lowerAscii passKey := by decide +kernel
    have he := settingText_inj (settings_colon hy) hcol hye
    obtain ⟨z, hz, rfl⟩ := List.mem_map.mp hy
    rw [Prod.mk.injEq] at he
    rw [lower_pass z hz he.1] at he
    have hg : Conf.get env' passKey = some (.str (p ++ ['x'])) := by
      refine Conf.get_set ?_ (by simp)
      simp only [env', GoMap.load_cons, reduceIte]
    rw [hg] at he
    have := congrArg List.length he.2
    simp [Conf.toStr] at this
  · intro h env' out hs
    have hl := hs levelKey secret
    have h' : ¬ SaysLevel env' "debug".toList := by
      unfold SaysLevel SaysText Unset at h ⊢
      rw [show env'.load "OM_LOGGING_LEVEL".toList = env.load "OM_LOGGING_LEVEL".toList from hl.symm]
      exact h
    have hc : configLevel env = configLevel env' := by
      have : Conf.get env levelKey = Conf.get env' levelKey := by rw [Conf.get, Conf.get, hl]
      unfold configLevel Conf.getString
      rw [show Conf.get env "OM_LOGGING_LEVEL".toList = _ from this]
      rfl
    unfold ConfigLogged
    constructor
    · rintro ⟨ss, -, rfl⟩
      exact ⟨settings env', .refl _, by rw [other_log h, other_log h', hc]⟩
    · rintro ⟨ss, -, rfl⟩
      exact ⟨settings env, .refl _, by rw [other_log h, other_log h', hc]⟩

example : ¬ SaysLevel [] "debug".toList ∧ ¬ SaysLevel [("OM_LOGGING_LEVEL".toList, "DEBUG".toList)] "debug".toList := by
  constructor <;> rintro (⟨h, -⟩ | ⟨-, h⟩) <;> revert h <;> decide +kernel

/-- **C151, refuted**: `config.Read` dumps all settings. -/
theorem C151_secret_refuted : ¬ C151_statement := by
  intro h
  refine (C151_exact_partial [] [("OM_LOGGING_LEVEL".toList, "debug".toList)]).mp (fun env' out hs => ⟨h _ _ _ _ hs, h _ _ _ _ ?_⟩)
    (.inl ⟨by decide +kernel, by decide +kernel⟩)
  exact fun k hk => (hs k hk).symm

/-! ## C153 -/

/-- What should hold: whoever asks for debug logging, in whatever mixture of cases, or for more, finds the
settings in effect in the log. -/
def C153_statement : Prop :=
  ∀ (t : Str) (env : GoMap Str) (out : List Record) (l : Str), SaysLevel env l →
    Log.lowerAscii l ∈ ["debug".toList, "trace".toList] → ConfigLogged t env out →
    ∀ k n d, Says env k n → (k, d) ∈ documented → ∃ x ∈ out, x.msg = "  ".toList ++ Log.lowerAscii k ++ ": ".toList ++ fmtInt n

/-- **C153, the part that holds**: with OM_LOGGING_LEVEL=debug, in small letters, the log has a line for
every setting, with the value that the rest of om-core uses. -/
theorem C153_debug_partial (t : Str) (env : GoMap Str) (out : List Record) (h : SaysLevel env "debug".toList)
    (ho : ConfigLogged t env out) :
    (∀ k d, (k, d) ∈ Conf.defaults → ∃ x ∈ out, x.msg = "  ".toList ++ Log.lowerAscii k ++ ": ".toList ++ Conf.getString env k) ∧
    (∀ k n d, Says env k n → (k, d) ∈ documented → ∃ x ∈ out, x.msg = "  ".toList ++ Log.lowerAscii k ++ ": ".toList ++ fmtInt n) ∧
    ∀ x ∈ out, x.level = .debug → x.msg = "configuration:".toList ∨
      ∃ k d, (k, d) ∈ Conf.defaults ∧ x.msg = "  ".toList ++ Log.lowerAscii k ++ ": ".toList ++ Conf.getString env k := by
  obtain ⟨ss, hp, rfl⟩ := ho
  rw [debug_log h]
  have all : ∀ k d, (k, d) ∈ Conf.defaults → ∃ x ∈ [(⟨.warn, t, "Trace logging level configured. Not recommended for production!".toList, []⟩ : Record),
        ⟨.debug, t, "configuration:".toList, configFields⟩] ++ ss.map fun x => ⟨.debug, t, settingText x, configFields⟩,
        x.msg = "  ".toList ++ Log.lowerAscii k ++ ": ".toList ++ Conf.getString env k := by
    intro k d hk
    exact ⟨_, List.mem_append_right _ (List.mem_map_of_mem (hp.mem_iff.mpr (List.mem_map_of_mem hk))), rfl⟩
  refine ⟨all, ?_, ?_⟩
  · intro k n d hs hk
    have hd : ∀ e ∈ documented, (e.1, Conf.Val.int e.2) ∈ Conf.defaults := by decide +kernel
    have := all k _ (hd (k, d) hk)
    rwa [Conf.getString_says hs] at this
  · intro x hx hl
    rcases List.mem_append.mp hx with hx | hx
    · simp only [List.mem_cons, List.not_mem_nil, or_false] at hx
      rcases hx with rfl | rfl
      · cases hl
      · exact .inl rfl
    · obtain ⟨y, hy, rfl⟩ := List.mem_map.mp hx
      obtain ⟨z, hz, rfl⟩ := List.mem_map.mp (hp.mem_iff.mp hy)
      exact .inr ⟨z.1, z.2, hz, rfl⟩

example : Says [("OM_LOGGING_LEVEL".toList, "debug".toList), ("PORT".toList, "81".toList)] "PORT".toList 81 ∧
    ("PORT".toList, (8080 : Int)) ∈ documented :=
  ⟨.inl (by unfold SetTo; decide +kernel), by decide +kernel⟩

/-- **C153 (otherwise).** With any other level no setting is shown: at most the words "configuration:" and
the warning appear. -/
theorem C153_otherwise (t : Str) (env : GoMap Str) (out : List Record) (h : ¬ SaysLevel env "debug".toList) (ho : ConfigLogged t env out) :
    ∀ x ∈ out, x.msg = "configuration:".toList ∨ x.msg = "Trace logging level configured. Not recommended for production!".toList := by
  obtain ⟨ss, -, rfl⟩ := ho
  rw [other_log h]
  intro x hx
  have hx := List.mem_of_mem_filter hx
  rcases List.mem_append.mp hx with hx | hx
  · split at hx
    · rw [List.mem_singleton.mp hx]; exact .inr rfl
    · cases hx
  · rw [List.mem_singleton.mp hx]; exact .inl rfl

/-- **C153, refuted**: `config.Read` compares the level with "debug" as it is written, while the level is
set whatever the cases; with OM_LOGGING_LEVEL=DEBUG or trace the dump is empty. -/
theorem C153_cases_refuted : ¬ C153_statement := by
  intro h
  have key : ∀ l : Str, l ≠ "debug".toList → l ≠ [] → Log.lowerAscii l ∈ ["debug".toList, "trace".toList] → False := by
    intro l hl hn hc
    have hs : SaysLevel [("OM_LOGGING_LEVEL".toList, l)] l := .inl ⟨by simp [GoMap.load], hn⟩
    have hnot : ¬ SaysLevel [("OM_LOGGING_LEVEL".toList, l)] "debug".toList := by
      intro hd
      exact hl ((level_text hs).symm.trans (level_text hd))
    have hport : Says [("OM_LOGGING_LEVEL".toList, l)] "PORT".toList 8080 :=
      .inr ⟨.inl (by simp [GoMap.load]), by decide +kernel⟩
    obtain ⟨x, hx, hm⟩ := h [] _ _ l hs hc ⟨_, .refl _, rfl⟩ _ _ _ hport (show ("PORT".toList, (8080 : Int)) ∈ documented by decide +kernel)
    rcases C153_otherwise [] _ _ hnot ⟨_, .refl _, rfl⟩ x hx with he | he <;> rw [hm] at he <;> revert he <;> decide +kernel
  exact key "DEBUG".toList (by decide +kernel) (by decide +kernel) (by decide +kernel)

/-! ## C68: which records appear -/

/-- The levels, the most severe first. -/
def severity : List Log.Level := [.panic, .fatal, .error, .warn, .info, .debug, .trace]

/-- **C68 (what appears).** With the level that OM_LOGGING_LEVEL says, by the table and in any mixture of
cases, or info where it says none, the log has exactly the records of that severity and above, in order. -/
theorem C68_shown (env : GoMap Str) (l : Str) (level : Log.Level) (rs : List Record) (h : SaysLevel env l)
    (hl : (Log.lowerAscii l, level) ∈ levelTable ∨ (Log.lowerAscii l ∉ levelTable.map (·.1) ∧ level = .info)) :
    (printed (configLevel env) rs).Sublist rs ∧
      ∀ r, r ∈ printed (configLevel env) rs ↔ r ∈ rs ∧ severity.idxOf r.level ≤ severity.idxOf level := by
  have he : configLevel env = level := by
    rw [configLevel, show Conf.getString env "OM_LOGGING_LEVEL".toList = _ from level_text h]
    obtain ⟨-, h1, h2, -⟩ := C68_levels_and_formats Log.lowerAscii l l
    rcases hl with hl | ⟨hl, rfl⟩
    · exact h1 _ hl rfl
    · exact h2 hl
  refine ⟨List.filter_sublist, fun r => ?_⟩
  have hr : ∀ a : Log.Level, rank a = severity.idxOf a := by intro a; cases a <;> decide
  rw [printed, List.mem_filter, decide_eq_true_eq, hr, hr, he]

example : SaysLevel [("OM_LOGGING_LEVEL".toList, "Warning".toList)] "Warning".toList ∧
    (Log.lowerAscii "Warning".toList, Log.Level.warn) ∈ levelTable :=
  ⟨.inl ⟨by decide +kernel, by decide +kernel⟩, by decide +kernel⟩

end OM.Props
