import Verif.Model.CApi
import Verif.Proofs.Event

/-!
Properties C57 and C58: the C interface.
-/

namespace Cres

open CApi

/-! ### C57 -/

theorem asI32_eq {n : Nat} (h : n < 2 ^ 31) : asI32 n = n := by
  unfold asI32
  apply Int.bmod_eq_of_le <;> norm_num at * <;> omega

/-- **C57**: only the first `buflen` bytes are written. If there is a message and the buffer is not empty, it contains the longest
prefix of the message that fits, followed by a zero byte. The result is 0 if the whole message has been copied, and the
required size otherwise, for messages of less than `2³¹ - 1` bytes. -/
theorem C57_buffer (msg : List UInt8) (mem : Buf) (buflen : Nat) (hmsg : msg.length < 2 ^ 31 - 1) :
    (∀ k, buflen ≤ k → (lastErr (some msg) mem buflen).1 k = mem k) ∧
    (0 < buflen → ∃ len, len < buflen ∧ len ≤ msg.length ∧ (len = msg.length ∨ len = buflen - 1) ∧
      (∀ k (hk : k < len) (hk' : k < msg.length), (lastErr (some msg) mem buflen).1 k = msg[k]) ∧
      (lastErr (some msg) mem buflen).1 len = 0) ∧
    (msg.length < buflen → (lastErr (some msg) mem buflen).2 = 0) ∧
    (buflen ≤ msg.length → (lastErr (some msg) mem buflen).2 = msg.length + 1) := by
  rw [lastErr]
  by_cases h0 : buflen = 0
  · simp only [h0, if_true]
    refine ⟨fun _ _ => by trivial, fun h => absurd h (lt_irrefl 0), fun h => absurd h (Nat.not_lt_zero _), fun _ => ?_⟩
    rw [asI32_eq (by omega)]
    omega
  · simp only [h0, if_false]
    have hmem : ∀ k, buflen ≤ k → Function.update (copyTo msg (min msg.length (buflen - 1)) mem) (min msg.length (buflen - 1)) 0 k =
        mem k := by
      intro k hk
      rw [Function.update_of_ne (by omega), copyTo, if_neg (by omega)]
    have hpre : 0 < buflen → ∃ len, len < buflen ∧ len ≤ msg.length ∧ (len = msg.length ∨ len = buflen - 1) ∧
      (∀ k (hk : k < len) (hk' : k < msg.length),
        Function.update (copyTo msg (min msg.length (buflen - 1)) mem) (min msg.length (buflen - 1)) 0 k = msg[k]) ∧
      Function.update (copyTo msg (min msg.length (buflen - 1)) mem) (min msg.length (buflen - 1)) 0 len = 0 := by
      intro hb
      refine ⟨min msg.length (buflen - 1), by omega, by omega, by omega, ?_, Function.update_self ..⟩
      intro k hk hk'
      rw [Function.update_of_ne (by omega), copyTo, if_pos hk, List.getD, List.getElem?_eq_getElem hk', Option.getD_some]
    by_cases hle : buflen ≤ msg.length
    · simp only [hle, if_true]
      refine ⟨hmem, hpre, fun h => by omega, fun _ => ?_⟩
      rw [asI32_eq (by omega)]
      omega
    · simp only [hle, if_false]
      exact ⟨hmem, hpre, fun _ => by trivial, fun h => absurd h (by simp)⟩

/-- **C57**: without an error nothing is written, and the result is 0. -/
theorem C57_no_error (mem : Buf) (buflen : Nat) : lastErr none mem buflen = (mem, 0) := rfl

/-- A sequence of calls of `cres_run` in one thread. -/
def cresRuns (rs : List RunResult) : Option (List UInt8) := rs.foldl (fun e r => (cresRun r e).1) none

/-- **C57**: the message is that of the last failed run in the same thread, whatever happened before and however many runs
succeeded since. The result of a run is 0 exactly if it succeeded. -/
theorem C57_last_error (before after : List RunResult) (msg : List UInt8) (h : ∀ r ∈ after, r = .ok) :
    cresRuns (before ++ .err msg :: after) = some msg ∧ cresRuns (before ++ .panic :: after) = some panicMsg ∧
      cresRuns after = none ∧ ∀ r e, (cresRun r e).2 = 0 ↔ r = .ok := by
  have hafter : ∀ (l : List RunResult) (e : Option (List UInt8)), (∀ r ∈ l, r = .ok) → l.foldl (fun e r => (cresRun r e).1) e = e := by
    intro l
    induction l with
    | nil => intro e _; rfl
    | cons r l ih =>
      intro e hl
      rw [List.foldl_cons, hl r (by simp), cresRun]
      exact ih e (fun r hr => hl r (by simp [hr]))
  refine ⟨?_, ?_, ?_, ?_⟩
  · rw [cresRuns, List.foldl_append, List.foldl_cons, hafter _ _ h]
    rfl
  · rw [cresRuns, List.foldl_append, List.foldl_cons, hafter _ _ h]
    rfl
  · exact hafter _ _ h
  · intro r e
    cases r <;> simp [cresRun]

/-- A message of three bytes in a buffer of three bytes: it is truncated and the required size is 4. -/
example : ((List.range 4).map (lastErr (some [65, 66, 67]) (fun _ => 9) 3).1, (lastErr (some [65, 66, 67]) (fun _ => 9) 3).2) =
    ([65, 66, 0, 9], 4) := by
  decide

/-! ### C58 -/

variable {K V : Type*}

/-- **C58** as stated, with several weights: the weights in the view are those of the event. -/
def C58_claim : Prop :=
  ∀ (value : Nat → Int) (bits : Int → Nat), (∀ w, value (bits w) = w) → ∀ (mem : Words) (addr : Nat) (e : Event Int Int),
    Stored bits true mem addr e.weights →
    ∀ i w, e.weights[i]? = some w → (viewEvent addr e).weight value mem i = w

/-- **C58** does not hold with several weights: `weights` points to the address of the weights, not to the weights. -/
theorem C58_violated : ¬ C58_claim := by
  intro h
  -- a single weight 7 on the heap at address 0, the `Box` is at address 10
  let value : Nat → Int := fun n => if n % 2 = 0 then (n / 2 : Nat) else -((n / 2 : Nat) : Int) - 1
  let bits : Int → Nat := fun w => if 0 ≤ w then 2 * w.toNat else 2 * (-w - 1).toNat + 1
  have hvb : ∀ w, value (bits w) = w := by
    intro w
    simp only [value, bits]
    split_ifs with h1 h2 h2 <;> omega
  have h7 := h value bits hvb (fun a => if a = 0 then bits 7 else if a = 11 then 1 else 0) 10 ⟨0, [7], []⟩ (by
    rw [Stored, if_pos rfl]
    refine ⟨by simp, ?_⟩
    intro i w hi
    cases i with
    | zero => simp at hi; subst hi; simp
    | succ i => simp at hi) 0 7 rfl
  simp [EventView.weight, viewEvent, value] at h7

theorem foldl_addWeight_multi (ws : List K) : ∀ b : EventBuilder K V,
    ws.foldl (fun b w => b.addWeight true w) b = { b with weights := b.weights ++ ws } := by
  induction ws with
  | nil => intro b; simp
  | cons w ws ih => intro b; rw [List.foldl_cons, ih]; simp [EventBuilder.addWeight]

theorem foldl_typeSets [LinearOrder V] (ts : List (TypeSetView V)) : ∀ b : EventBuilder K V,
    ts.foldl (fun b t => t.momenta.foldl (fun b p => b.addOutgoing t.pid p) b) b =
      { b with outgoingByPid := b.outgoingByPid ++ flatGroups (ts.map fun t => (t.pid, t.momenta)) } := by
  induction ts with
  | nil => intro b; simp [flatGroups]
  | cons t ts ih =>
    intro b
    have h := foldl_addOutgoing (t.momenta.map fun p => (t.pid, p)) b
    rw [List.foldl_map] at h
    rw [List.foldl_cons, ih]
    simp only at h
    rw [h]
    simp [flatGroups, List.append_assoc]

/-- **C58**: converting a view of an event with the right weights back to an event gives the same event. -/
theorem C58_to_event [Zero K] [LinearOrder V] (multi : Bool) (value : Nat → K) (mem : Words) (v : EventView V) (e : Event K V)
    (parts : List (ℤ × V)) (he : e.outgoingByPid = compressOutgoing parts) (hmulti : multi = false → e.weights.length = 1)
    (hid : v.id = e.id) (hn : v.nWeights = e.weights.length)
    (hw : ∀ i w, e.weights[i]? = some w → v.weight value mem i = w)
    (hts : v.typeSets.map (fun t => (t.pid, t.momenta)) = e.outgoingByPid) :
    v.toEvent multi value mem = e := by
  have hws : (List.range v.nWeights).map (v.weight value mem) = e.weights := by
    rw [hn]
    apply List.ext_getElem (by simp)
    intro i h1 h2
    rw [List.getElem_map, List.getElem_range]
    exact hw i _ (List.getElem?_eq_getElem h2)
  have hb : (List.range v.nWeights).foldl (fun b i => b.addWeight multi (v.weight value mem i)) (EventBuilder.new multi) =
      (⟨e.weights, []⟩ : EventBuilder K V) := by
    rw [← List.foldl_map (f := v.weight value mem) (g := fun (b : EventBuilder K V) w => b.addWeight multi w), hws]
    cases multi with
    | true => rw [foldl_addWeight_multi]; simp [EventBuilder.new]
    | false =>
      obtain ⟨w, hw1⟩ := List.length_eq_one_iff.1 (hmulti rfl)
      rw [hw1]
      simp [EventBuilder.new, EventBuilder.addWeight]
  rw [EventView.toEvent]
  simp only [hb]
  rw [foldl_typeSets, hts, he]
  simp only [EventBuilder.build, List.nil_append]
  rw [(groupInv_compress parts).flat, compress_perm (List.perm_insertionSort _ _), ← he, hid]

/-- **C58** without `multiweight`: the view that is passed to the distance function has the id, the weight and the particles of
the event, and converting it to an event gives the same event. Several weights are missing, see `C58_violated`. -/
theorem C58_view_partial [Zero K] [LinearOrder V] (value : Nat → K) (bits : K → Nat) (hvb : ∀ w, value (bits w) = w) (mem : Words)
    (addr : Nat) (e : Event K V) (hs : Stored bits false mem addr e.weights) (parts : List (ℤ × V))
    (he : e.outgoingByPid = compressOutgoing parts) :
    (viewEvent addr e).id = e.id ∧ (viewEvent addr e).nWeights = e.weights.length ∧
    (∀ i w, e.weights[i]? = some w → (viewEvent addr e).weight value mem i = w) ∧
    (viewEvent addr e).typeSets.map (fun t => (t.pid, t.momenta)) = e.outgoingByPid ∧
    (viewEvent addr e).toEvent false value mem = e := by
  rw [Stored, if_neg (by simp)] at hs
  obtain ⟨w, hw, hm⟩ := hs
  have h1 : ∀ i w, e.weights[i]? = some w → (viewEvent addr e).weight value mem i = w := by
    intro i w' hi
    rw [hw] at hi
    cases i with
    | zero =>
      simp only [List.getElem?_cons_zero, Option.some.injEq] at hi
      subst hi
      rw [EventView.weight, viewEvent, Nat.add_zero, hm, hvb]
    | succ i => simp at hi
  have h2 : (viewEvent addr e).typeSets.map (fun t => (t.pid, t.momenta)) = e.outgoingByPid := by
    rw [viewEvent, List.map_map]
    exact List.map_id _
  exact ⟨rfl, rfl, h1, h2, C58_to_event false value mem _ e parts he (fun _ => by rw [hw]; rfl) rfl rfl h1 h2⟩

/-- An event with three particles of two types and weight 7 stored at address 10. -/
example : (viewEvent 10 (⟨3, [7], compressOutgoing [(11, 5), (21, 4), (11, 6)]⟩ : Event Nat Nat)).toEvent false id
    (fun a => if a = 10 then 7 else 0) = ⟨3, [7], [(21, [4]), (11, [6, 5])]⟩ ∧
    Stored id false (fun a => if a = 10 then 7 else 0) 10 [7] :=
  ⟨by decide, ⟨7, rfl, rfl⟩⟩

end Cres
