/-
C112: set-up of logging.
-/
import Verif.Model.Logging
import Mathlib.Data.List.Basic
import Mathlib.Order.Basic
import Mathlib.Order.Lattice

set_option linter.unusedSectionVars false

namespace FinML

/-- The level an environment variable selects. -/
def envLevel (v : Option (List Char)) (dflt : List Char) : Option Int := levelOf ((v.getD dflt).map Char.toUpper)

theorem noDirectory_iff (p : List Char) : noDirectory p = false ↔ '/' ∈ p := by
  unfold noDirectory
  rw [Bool.not_eq_false', List.contains_iff_mem]

/-- **C112.** An application that installed its own handlers is left alone, and so is an earlier set-up. -/
theorem C112_no_change (canMake : List Char → Bool) (env : LogEnv) (s : LogState) (h : s.handlers ≠ []) :
    setupLogging canMake env s = (s, .ok ()) := by
  unfold setupLogging; rw [if_pos h]

example : setupLogging (fun _ => true) ⟨none, none, none⟩ ⟨[.console 30], 30, false, true⟩ = (⟨[.console 30], 30, false, true⟩, .ok ()) := rfl

/-- **C112.** On a fresh root logger the set-up succeeds exactly when both levels are known and the log path, if given, has a
directory part that can be created. -/
theorem C112_success_iff (canMake : List Char → Bool) (env : LogEnv) (s : LogState) (h : s.handlers = []) :
    (setupLogging canMake env s).2 = .ok () ↔
      (envLevel env.fileLevel "DEBUG".toList).isSome ∧ (envLevel env.consoleLevel "INFO".toList).isSome ∧
      ∀ p, env.path = some p → p ≠ [] → '/' ∈ p ∧ canMake p = true := by
  unfold setupLogging envLevel
  rw [if_neg (by simp [h])]
  dsimp only
  cases levelOf (List.map Char.toUpper (env.fileLevel.getD "DEBUG".toList)) <;>
    cases levelOf (List.map Char.toUpper (env.consoleLevel.getD "INFO".toList)) <;> simp only [Option.isSome]
  · simp
  · simp
  · simp
  · cases hp : env.path with
    | none => simp
    | some p =>
      cases p with
      | nil => simp
      | cons c cs =>
        simp only [Option.some.injEq, forall_eq', true_and]
        by_cases h1 : '/' ∈ c :: cs
        · have e : noDirectory (c :: cs) = false := (noDirectory_iff _).2 h1
          cases hm : canMake (c :: cs) <;> simp [e, List.mem_cons.1 h1]
        · have e : noDirectory (c :: cs) = true := by unfold noDirectory; simpa using h1
          simp [e, h1]

example : (setupLogging (fun _ => true) ⟨some "verbose".toList, none, none⟩ ⟨[], 30, false, true⟩).2 = .error "TypeError" ∧
    (setupLogging (fun _ => true) ⟨some "error".toList, none, none⟩ ⟨[], 30, false, true⟩).2 = .ok () := ⟨rfl, rfl⟩

/-- **C112.** After a successful set-up of a fresh logger every record reaches exactly the handlers whose own level it
reaches: the level of the root logger hides nothing. -/
theorem C112_filtering (canMake : List Char → Bool) (env : LogEnv) (s : LogState) (h : s.handlers = [])
    (hok : (setupLogging canMake env s).2 = .ok ()) :
    ∃ f c, envLevel env.fileLevel "DEBUG".toList = some f ∧ envLevel env.consoleLevel "INFO".toList = some c ∧
      (setupLogging canMake env s).1.quiet = true ∧ (setupLogging canMake env s).1.propagate = false ∧
      (setupLogging canMake env s).1.handlers = .console c ::
        (match env.path with | some (p :: ps) => [.file (p :: ps) f] | _ => []) ∧
      ∀ l hd, hd ∈ receivers (setupLogging canMake env s).1 l ↔ hd ∈ (setupLogging canMake env s).1.handlers ∧ hd.minLevel ≤ l := by
  have hr : ∀ (t : LogState) (f c : Int), t.level = min f c →
      (∀ hd ∈ t.handlers, hd.minLevel = f ∨ hd.minLevel = c) →
      ∀ l hd, hd ∈ receivers t l ↔ hd ∈ t.handlers ∧ hd.minLevel ≤ l := by
    intro t f c hl hh l hd
    unfold receivers
    split <;> rename_i hlt
    · constructor
      · intro h; cases h
      · rintro ⟨hm, hle⟩
        rw [hl] at hlt
        rcases hh hd hm with e | e <;> rw [e] at hle <;> omega
    · rw [List.mem_filter, decide_eq_true_eq]
  obtain ⟨hf, hc, hp⟩ := (C112_success_iff canMake env s h).1 hok
  obtain ⟨f, hf⟩ := Option.isSome_iff_exists.1 hf
  obtain ⟨c, hc⟩ := Option.isSome_iff_exists.1 hc
  refine ⟨f, c, hf, hc, ?_⟩
  have hs : setupLogging canMake env s = (finishLogging { s with level := min f c, handlers := LogHandler.console c ::
        (match env.path with | some (p :: ps) => [.file (p :: ps) f] | _ => []) }, .ok ()) := by
    unfold setupLogging
    rw [if_neg (by simp [h])]
    dsimp only
    rw [show levelOf (List.map Char.toUpper (env.fileLevel.getD "DEBUG".toList)) = some f from hf,
      show levelOf (List.map Char.toUpper (env.consoleLevel.getD "INFO".toList)) = some c from hc]
    cases hpp : env.path with
    | none => rfl
    | some p =>
      cases p with
      | nil => rfl
      | cons a as =>
        obtain ⟨h1, h2⟩ := hp _ hpp (by simp)
        have e1 : noDirectory (a :: as) = false := (noDirectory_iff _).2 h1
        simp [e1, h2]
  rw [hs]
  refine ⟨rfl, rfl, rfl, ?_⟩
  apply hr _ f c rfl
  intro hd hmem
  have hmem' : hd ∈ LogHandler.console c :: (match env.path with | some (p :: ps) => [.file (p :: ps) f] | _ => []) := hmem
  rcases List.mem_cons.1 hmem' with e | e
  · right; rw [e]; rfl
  · left
    split at e
    · rw [List.mem_singleton.1 e]; rfl
    · cases e

example : setupLogging (fun _ => true) ⟨none, some "warning".toList, some "logs/run.log".toList⟩ ⟨[], 30, false, true⟩ =
    (⟨[.console 30, .file "logs/run.log".toList 10], 10, true, false⟩, .ok ()) := rfl

/-- Violation: a log path without a directory (`run.log`) makes the set-up fail, and with it the first import; the console
handler is already installed, so the next call returns at once and reports success without the file and without
silencing the libraries. -/
theorem C112_half_configured (canMake : List Char → Bool) (env : LogEnv) (s : LogState) (h : s.handlers = []) (p : List Char)
    (hp : env.path = some p) (hne : p ≠ []) (hd : '/' ∉ p) (hf : (envLevel env.fileLevel "DEBUG".toList).isSome)
    (hc : (envLevel env.consoleLevel "INFO".toList).isSome) :
    let first := setupLogging canMake env s
    let second := setupLogging canMake env first.1
    first.2 = .error "FileNotFoundError" ∧ second.2 = .ok () ∧ second.1 = first.1 ∧ second.1.quiet = s.quiet ∧
      ∃ c, second.1.handlers = [.console c] := by
  obtain ⟨f, hf⟩ := Option.isSome_iff_exists.1 hf
  obtain ⟨c, hc⟩ := Option.isSome_iff_exists.1 hc
  have hs : setupLogging canMake env s = ({ s with level := min f c, handlers := [.console c] }, .error "FileNotFoundError") := by
    unfold setupLogging
    rw [if_neg (by simp [h])]
    dsimp only
    rw [show levelOf (List.map Char.toUpper (env.fileLevel.getD "DEBUG".toList)) = some f from hf,
      show levelOf (List.map Char.toUpper (env.consoleLevel.getD "INFO".toList)) = some c from hc, hp]
    cases p with
    | nil => exact absurd rfl hne
    | cons a as =>
      have e1 : noDirectory (a :: as) = true := by unfold noDirectory; simpa using hd
      simp [e1]
  have h2 : setupLogging canMake env (setupLogging canMake env s).1 = ((setupLogging canMake env s).1, .ok ()) :=
    C112_no_change _ _ _ (by rw [hs]; simp)
  dsimp only
  rw [h2, hs]
  exact ⟨rfl, rfl, rfl, rfl, c, rfl⟩

example : setupLogging (fun _ => true) ⟨none, some "warning".toList, some "logs/run.log".toList⟩ ⟨[], 30, false, true⟩ =
    (⟨[.console 30, .file "logs/run.log".toList 10], 10, true, false⟩, .ok ()) := rfl
example : (setupLogging (fun _ => true) ⟨some "verbose".toList, none, none⟩ ⟨[], 30, false, true⟩).2 = .error "TypeError" := rfl

/-- **C112.** A handler installed by the application receives every record that the root logger lets through, and a logger with only such
handlers hides records exactly by its own level. -/
theorem C112_foreign (s : LogState) (h : .foreign ∈ s.handlers) (l : Int) (hl : 0 ≤ l) : .foreign ∈ receivers s l ↔ s.level ≤ l := by
  unfold receivers
  by_cases hlt : l < s.level
  · rw [if_pos hlt]
    simp only [List.not_mem_nil, false_iff]
    omega
  · rw [if_neg hlt, List.mem_filter]
    have h0 : decide (LogHandler.foreign.minLevel ≤ l) = true := decide_eq_true hl
    exact ⟨fun _ => not_lt.mp hlt, fun _ => ⟨h, h0⟩⟩

example : LogHandler.foreign ∈ receivers ⟨[.foreign], 0, false, true⟩ 0 := by simp [receivers, LogHandler.minLevel]

end FinML
