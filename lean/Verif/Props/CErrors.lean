import Verif.Spec.CErrors
import Verif.Props.CApi

/-!
# C119: errors in the C interface are reported to the thread in which they occurred
-/

namespace Cres

open Spec CApi

/-- One call: what happens to the error of each thread. -/
theorem call_lastError (p : Process) (t u : Nat) (c : Call) : (p.call t c).1.lastError u =
    open Classical in if u = t ∧ CanFail c ∧ (p.call t c).2.ret ≠ 0 then some (failureMessage c) else p.lastError u := by
  classical
  by_cases hu : u = t
  · subst hu
    cases c with
    | run r => cases r <;> simp [Process.call, cresRun, CanFail, failureMessage, panicMsg]
    | logger name =>
      simp only [Process.call, loggerFromEnv, CanFail, failureMessage]
      split_ifs with h1 h2 h2 <;> simp_all [panicMsg]
    | getLastErr mem buflen => simp [Process.call, CanFail]
    | printLastErr => simp [Process.call, CanFail]
  · rw [if_neg (fun h => hu h.1)]
    cases c with
    | run r => simp [Process.call, Function.update_of_ne hu]
    | logger name =>
      simp only [Process.call, loggerFromEnv]
      split_ifs <;> simp [Function.update_of_ne hu]
    | getLastErr mem buflen => rfl
    | printLastErr => rfl

theorem calls_lastError (p : Process) (cs : List (Nat × Call)) (t : Nat) :
    (NoFailure (p.calls cs).2 t → (p.calls cs).1.lastError t = p.lastError t) ∧
      ∀ msg, LastFailure (p.calls cs).2 t msg → (p.calls cs).1.lastError t = some msg := by
  induction cs generalizing p with
  | nil =>
    refine ⟨fun _ => rfl, ?_⟩
    rintro msg ⟨before, c, r, after, h, -⟩
    simp [Process.calls] at h
  | cons x cs ih =>
    obtain ⟨u, c⟩ := x
    simp only [Process.calls]
    obtain ⟨ih1, ih2⟩ := ih (p.call u c).1
    have hno : NoFailure ((p.call u c).1.calls cs).2 t → ((p.call u c).1.calls cs).1.lastError t = (p.call u c).1.lastError t := ih1
    refine ⟨?_, ?_⟩
    · intro h
      rw [hno (fun x hx => h x (List.mem_cons_of_mem _ hx)), call_lastError, if_neg]
      rintro ⟨rfl, hc, hr⟩
      exact hr (h _ (List.mem_cons_self ..) rfl hc)
    · rintro msg ⟨before, d, r, after, h, hd, hr, rfl, hafter⟩
      cases before with
      | nil =>
        simp only [List.nil_append, List.cons.injEq, Prod.mk.injEq] at h
        obtain ⟨⟨rfl, rfl, rfl⟩, h⟩ := h
        rw [hno (h ▸ hafter), call_lastError, if_pos ⟨rfl, hd, hr⟩]
      | cons b before =>
        simp only [List.cons_append, List.cons.injEq] at h
        exact ih2 _ ⟨before, d, r, after, h.2, hd, hr, rfl, hafter⟩

/-- **C119**: after all sequences of calls in all threads, `cres_print_last_err` prints the message of the last call that has failed in the same
thread, and nothing if there is none. -/
theorem C119_print (cs : List (Nat × Call)) (t : Nat) :
    (∀ msg, LastFailure (Process.init.calls cs).2 t msg →
      ((Process.init.calls cs).1.call t .printLastErr).2.printed = msg ++ "\n".toUTF8.toList) ∧
    (NoFailure (Process.init.calls cs).2 t → ((Process.init.calls cs).1.call t .printLastErr).2.printed = []) := by
  obtain ⟨h1, h2⟩ := calls_lastError Process.init cs t
  refine ⟨?_, ?_⟩
  · intro msg h
    have := h2 msg h
    simp only [Process.call, this]
    congr 1
    decide +kernel
  · intro h
    have := h1 h
    simp only [Process.call, this]
    rfl

/-- **C119**: `cres_get_last_err` gives the same message. An empty buffer can be used to ask for the size, and a buffer of that size (or a larger one)
is enough for the complete message and a zero byte. Nothing happens between the calls in the same thread except for calls that do not
fail; other threads may do anything. -/
theorem C119_get (cs ds : List (Nat × Call)) (t : Nat) {msg : List UInt8} (hmsg : msg.length < 2 ^ 31 - 1)
    (h : LastFailure (Process.init.calls cs).2 t msg) (mem : Buf) :
    let p := (Process.init.calls cs).1
    let size := (p.call t (.getLastErr mem 0)).2.ret
    let p' := (p.call t (.getLastErr mem 0)).1
    size = msg.length + 1 ∧ (p.call t (.getLastErr mem 0)).2.buf = some mem ∧
      (NoFailure (p'.calls ds).2 t → ∀ (mem' : Buf) (buflen : Nat), size ≤ buflen →
        ∃ buf, ((p'.calls ds).1.call t (.getLastErr mem' buflen)).2.ret = 0 ∧
          ((p'.calls ds).1.call t (.getLastErr mem' buflen)).2.buf = some buf ∧
          (List.range (msg.length + 1)).map buf = msg ++ [0] ∧ ∀ k, buflen ≤ k → buf k = mem' k) := by
  have he := (calls_lastError Process.init cs t).2 msg h
  have hsize : ((Process.init.calls cs).1.call t (.getLastErr mem 0)).2.ret = msg.length + 1 := by
    simp only [Process.call, he, lastErr, if_true]
    rw [asI32_eq (by omega)]
    omega
  refine ⟨hsize, ?_, ?_⟩
  · simp only [Process.call, he, lastErr, if_true]
  · intro hno mem' buflen hb
    rw [hsize] at hb
    have hb' : msg.length < buflen := by omega
    have he' := (calls_lastError ((Process.init.calls cs).1.call t (.getLastErr mem 0)).1 ds t).1 hno
    have he'' : ((Process.init.calls cs).1.call t (.getLastErr mem 0)).1.lastError t = some msg := he
    rw [he''] at he'
    obtain ⟨hkeep, hpre, hret, -⟩ := C57_buffer msg mem' buflen hmsg
    obtain ⟨len, hl1, hl2, hl3, hl4, hl5⟩ := hpre (by omega)
    have hl : len = msg.length := by omega
    subst hl
    generalize ((Process.init.calls cs).1.call t (.getLastErr mem 0)).1.calls ds = q at he' ⊢
    refine ⟨(lastErr (some msg) mem' buflen).1, ?_, ?_, ?_, hkeep⟩
    · simp only [Process.call, he']
      exact hret hb'
    · simp only [Process.call, he']
    · rw [List.range_succ, List.map_append, List.map_singleton, hl5]
      congr 1
      apply List.ext_getElem
      · simp
      · intro k hk hk'
        simp only [List.getElem_map, List.getElem_range]
        exact hl4 k hk' hk'

/-- **C119**: asking for errors changes nothing, and return values of `cres_run` only depend on whether the run succeeded. -/
theorem C119_ask (p : Process) (t : Nat) :
    (∀ mem buflen, (p.call t (.getLastErr mem buflen)).1 = p) ∧ (p.call t .printLastErr).1 = p ∧
      (∀ r, (p.call t (.run r)).2.ret = 0 ↔ r = .ok) ∧ (∀ r, (p.call t (.run r)).2.ret = -1 ↔ r = .panic) := by
  refine ⟨fun _ _ => rfl, rfl, ?_, ?_⟩ <;> intro r <;> cases r <;> simp [Process.call, cresRun]

/-- **C119**: errors of one thread are not seen in another one: calls in other threads do not change what is reported. -/
theorem C119_threads (p : Process) (cs : List (Nat × Call)) (t : Nat) (h : ∀ x ∈ cs, x.1 ≠ t) :
    (∀ mem buflen, ((p.calls cs).1.call t (.getLastErr mem buflen)).2 = (p.call t (.getLastErr mem buflen)).2) ∧
      ((p.calls cs).1.call t .printLastErr).2 = (p.call t .printLastErr).2 := by
  have hh : ∀ (p : Process) (cs : List (Nat × Call)), (∀ x ∈ cs, x.1 ≠ t) → ∀ x ∈ (p.calls cs).2, x.1 ≠ t := by
    intro p cs
    induction cs generalizing p with
    | nil => intro _ x hx; simp [Process.calls] at hx
    | cons y cs ih =>
      intro hcs x hx
      simp only [Process.calls, List.mem_cons] at hx
      rcases hx with rfl | hx
      · exact hcs y (List.mem_cons_self ..)
      · exact ih _ (fun z hz => hcs z (List.mem_cons_of_mem _ hz)) x hx
  have := (calls_lastError p cs t).1 (fun x hx hxt => absurd hxt (hh p cs h x hx))
  refine ⟨fun mem buflen => ?_, ?_⟩ <;> simp only [Process.call, this]

theorem calls_logger (cs : List (Nat × Call)) (p : Process) : (p.calls cs).1.logger = true ↔
    p.logger = true ∨ ∃ t name, (t, Call.logger name, (0 : Int)) ∈ (p.calls cs).2 := by
  induction cs generalizing p with
  | nil => simp [Process.calls]
  | cons x cs ih =>
    obtain ⟨t, c⟩ := x
    simp only [Process.calls, ih, List.mem_cons, Prod.mk.injEq]
    cases c with
    | run r => simp [Process.call]
    | getLastErr mem buflen => simp [Process.call]
    | printLastErr => simp [Process.call]
    | logger name =>
      simp only [Process.call, loggerFromEnv]
      split_ifs with h1
      · simp only [true_or, true_iff]
        exact Or.inr ⟨t, name, Or.inl ⟨rfl, rfl, trivial⟩⟩
      · simp

/-- **C119**: in every process, the logger can be initialised once: a call of `cres_logger_from_env` succeeds exactly if the name is
utf8 and no earlier call in any thread has succeeded. -/
theorem C119_logger (cs : List (Nat × Call)) (t : Nat) (name : List UInt8) :
    ((Process.init.calls cs).1.call t (.logger name)).2.ret = 0 ↔
      isUtf8 name = true ∧ ∀ u name', (u, Call.logger name', (0 : Int)) ∉ (Process.init.calls cs).2 := by
  have := calls_logger cs Process.init
  have h0 : ((Process.init.calls cs).1.call t (.logger name)).2.ret = 0 ↔
      isUtf8 name = true ∧ ¬ (Process.init.calls cs).1.logger = true := by
    simp only [Process.call, loggerFromEnv]
    cases hn : isUtf8 name <;> cases hl : (Process.init.calls cs).1.logger <;> simp
  rw [h0, this]
  simp [Process.init]

/-! ### Examples -/

/-- A history: thread 0 fails with message `A`, thread 1 sets a logger, thread 0 tries the same, thread 1 fails with message `B` and thread 0 runs successfully. -/
def exCalls : List (Nat × Call) :=
  [(0, .run (.err [65])), (1, .logger [67]), (0, .logger [67]), (1, .run (.err [66])), (0, .run .ok)]

example : ((Process.init.calls exCalls).2.map fun x => (x.1, x.2.2)) = [(0, 1), (1, 0), (0, -1), (1, 1), (0, 0)] := by decide +kernel

example : LastFailure (Process.init.calls exCalls).2 1 [66] :=
  ⟨[(0, .run (.err [65]), 1), (1, .logger [67], 0), (0, .logger [67], -1)], .run (.err [66]), 1, [(0, .run .ok, 0)], by
    have h1 : isUtf8 [67] = true := by decide +kernel
    simp [exCalls, Process.calls, Process.call, loggerFromEnv, h1, cresRun, Process.init], trivial, by decide, rfl, by
      intro x hx hx1
      simp only [List.mem_singleton] at hx
      subst hx
      simp at hx1⟩

example : ((Process.init.calls exCalls).1.call 1 .printLastErr).2.printed = [66, 10] ∧
    ((Process.init.calls exCalls).1.call 0 .printLastErr).2.printed = "panic: Any { .. }\n".toUTF8.toList ∧
    ((Process.init.calls exCalls).1.call 2 .printLastErr).2.printed = [] := by
  decide +kernel

end Cres
