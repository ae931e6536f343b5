import Verif.JoinGen.Main
import Verif.JoinGen.Drained2
import Verif.JoinGen.OnDemand
import Verif.JoinGen.Ended

/-!
# C59: joins are loops whose body is the client's
-/

set_option autoImplicit false

namespace Verif.JoinGen

open Verif Verif.Lazy Verif.Join

variable {σ A K E : Type}

/-- C59.  Whatever the two inputs, the conversions of the condition and the client do to the state, and
whatever raises: consuming a join is running the nested loops with the client in their middle. -/
theorem C59_stream [DecidableEq A] [BEq K] [EquivBEq K] (c : Code σ A K E)
    (body : A × A → σ → Flow E × σ) (n m : ℕ) (w : σ) :
    ∃ k0, ∀ k, k0 ≤ k → run c body k n m w = loops c body n m w := by
  unfold run loops
  rcases c.pretest w with ⟨_ | b, w1⟩
  · exact ⟨0, fun _ _ => rfl⟩
  · cases b
    · exact ⟨0, fun _ _ => rfl⟩
    · dsimp only
      have h := start_eq c m w1
      revert h
      rcases readRight c m w1 with ⟨⟨right, rows⟩ | _ | _, m1, w2⟩
      · rintro ⟨src, h1, h2, h3⟩
        obtain ⟨k0, hk⟩ := top_runs c src right rows body h2 n [] ⟨m1, false, w2⟩
        refine ⟨k0, fun k hle => ?_⟩
        simp only [h1]
        rw [consume_eq c src rows h3 body k c.gen (.top []) ?_ n ⟨m1, false, w2⟩, hk k hle]
        · rcases eachLeft c right body n ⟨m1, false, w2⟩ with ⟨_ | _ | _ | _, given, W3⟩
          · simp [closing]
          · rfl
          · rfl
          · rfl
        · cases hkind : c.kind with
          | inner => simp [Code.gen, hkind, Sim]
          | left sw => simp [Code.gen, hkind, Sim]
          | outer => simp [Code.gen, hkind, Sim]
      · intro h; simp only at h; simp only [h]; exact ⟨0, fun _ _ => trivial⟩
      · intro h; simp only at h; simp only [h]; exact ⟨0, fun _ _ => trivial⟩

/-- C59.  A client that leaves the loop (or something that raises) while left rows remain: these have not
been touched, and the run would have been the same with any other rows after those that were there.
(An outer join that goes through its right rows has come to the end of the left ones.) -/
theorem C59_on_demand {τ : Type} [DecidableEq A] [BEq K] [EquivBEq K] (c : Code τ A K E)
    (body : A × A → τ → Flow E × τ) (n m : ℕ) (ls rest : List A) (t : τ) (e : End E) (ls' : List A)
    (t' : τ) (he : e ≠ .done) (hk : c.kind ≠ .outer ∨ ls' ≠ [])
    (h : ∃ k0, ∀ k, k0 ≤ k →
      run (overList c) (fun p => aside (body p)) k n m (ls, t) = (e, (ls', t'))) :
    ∃ k0, ∀ k, k0 ≤ k →
      run (overList c) (fun p => aside (body p)) k n m (ls ++ rest, t) = (e, (ls' ++ rest, t')) := by
  obtain ⟨k1, h1⟩ := C59_stream (overList c) (fun p => aside (body p)) n m (ls, t)
  obtain ⟨k2, h2⟩ := C59_stream (overList c) (fun p => aside (body p)) n m (ls ++ rest, t)
  obtain ⟨k3, h3⟩ := h
  have hl : loops (overList c) (fun p => aside (body p)) n m (ls, t) = (e, (ls', t')) := by
    rw [← h1 (max k1 k3) (Nat.le_max_left _ _), h3 (max k1 k3) (Nat.le_max_right _ _)]
  refine ⟨k2, fun k hle => ?_⟩
  rw [h2 k hle, loops_more c body n m ls rest t e ls' t' he hk hl]

/-- C59.  Consumed to its end by a client that collects the pairs, the generator of a join gives the
pairs of `joinRows` (which C44-C47 are about). -/
theorem C59_drained {V : Type} [DecidableEq A] [BEq V] [EquivBEq V] (truthy : V → Bool) (none_ : A)
    (how : How) (cond : Option (Cond A V E)) (left right : List A) (oneShotLeft oneShotRight : Bool)
    (pairs : List (A × A))
    (h : joinRows truthy none_ how cond left right oneShotLeft oneShotRight = .ok pairs) (n m : ℕ)
    (hn : left.length + right.length < n) (hm : left.length + right.length < m) :
    ∃ k0 w, (∀ k, k0 ≤ k →
      run (joinCode truthy none_ how cond left right oneShotLeft oneShotRight).1 keep k n m
        (joinCode truthy none_ how cond left right oneShotLeft oneShotRight).2 = (.done, w)) ∧
      w.out = pairs := by
  unfold joinRows at h
  unfold joinCode
  by_cases hr : how = .right
  · simp only [hr, if_true] at h ⊢
    obtain ⟨w, h1, h2⟩ := loops_core truthy none_ (.left true) (fromCondition .left cond) right left
      oneShotLeft pairs (by simpa [Kind.how] using h) n m (by omega) (by omega)
    obtain ⟨k0, h3⟩ := C59_stream (build truthy none_ (.left true) (fromCondition .left cond) left
      oneShotLeft) keep n m ⟨right, left, []⟩
    exact ⟨k0, w, fun k hk => by rw [h3 k hk, h1], h2⟩
  · simp only [hr, if_false] at h ⊢
    obtain ⟨w, h1, h2⟩ := loops_core truthy none_ (kindOf how) (fromCondition how cond) left right
      oneShotRight pairs (by cases how <;> first | exact (hr rfl).elim | simpa [Kind.how, kindOf] using h)
      n m (by omega) (by omega)
    obtain ⟨k0, h3⟩ := C59_stream (build truthy none_ (kindOf how) (fromCondition how cond) right
      oneShotRight) keep n m ⟨left, right, []⟩
    exact ⟨k0, w, fun k hk => by rw [h3 k hk, h1], h2⟩

/-! ## Concretely -/

/-- `c.join(c.item(0), c.item(1), c.LEFT % 10 == c.RIGHT % 10)` over two iterators. -/
def sampleCond : Option (Cond ℕ ℕ String) :=
  some (.eq [.left (fun l => .ok (l % 10)), .right (fun r => .ok (r % 10))])

/-- A client that leaves the loop at its second pair. -/
def twoPairs (p : ℕ × ℕ) (w : St ℕ) : Flow String × St ℕ :=
  (if w.out.length = 1 then .brk else .go, { w with out := w.out ++ [p] })

/-- Consumed to the end. -/
example : run (joinCode (· != 0) 0 .left sampleCond [11, 12, 13] [21, 31, 43] true true).1 keep 10 10 10
    (joinCode (· != 0) 0 .left sampleCond [11, 12, 13] [21, 31, 43] true true).2 =
    (.done, ⟨[], [], [(11, 21), (11, 31), (12, 0), (13, 43)]⟩) := by rfl

/-- A client that leaves at the second pair: one left row was read, the others are still there; the right
side was read to its end for the keys. -/
example : run (joinCode (· != 0) 0 .left sampleCond [11, 12, 13] [21, 31, 43] true true).1 twoPairs 10 10 10
    (joinCode (· != 0) 0 .left sampleCond [11, 12, 13] [21, 31, 43] true true).2 =
    (.brk, ⟨[12, 13], [], [(11, 21), (11, 31)]⟩) := by rfl

/-- Without keys the right side is read on demand as well. -/
example : run (joinCode (E := String) (V := ℕ) (· != 0) 0 .inner none [11, 12, 13] [21, 31, 43] true true).1
    twoPairs 10 10 10
    (joinCode (E := String) (V := ℕ) (· != 0) 0 .inner none [11, 12, 13] [21, 31, 43] true true).2 =
    (.brk, ⟨[12, 13], [43], [(11, 21), (11, 31)]⟩) := by rfl

/-- The hypothesis of `C59_drained` for this join. -/
example : joinRows (· != 0) 0 .left sampleCond [11, 12, 13] [21, 31, 43] true true =
    .ok [(11, 21), (11, 31), (12, 0), (13, 43)] := by rfl

/-- A left join whose conditions count their calls, over a list held apart: two rows, the client
stops at the first pair, one row is left. -/
def counting : Code ℕ ℕ ℕ String where
  kind := .left false
  pullL := fun w => (.stop, w)
  pullR := fun w => (.stop, w)
  rows := some [5, 6, 7]
  pre := none
  leftFilter := some fun l w => (.ok (l != 0), w + 1)
  rightFilter := none
  keys := none
  cond := some fun l r w => (.ok (r % 2 == l % 2), w + 10)
  none_ := 0

/-- The first pair costs one filter call per left row so far and two conditions. -/
example : ∀ k, 1 ≤ k → run (overList counting) (fun p => aside fun w => (if p.2 = 0 then .go else .brk, w))
    k 5 5 ([0, 2, 4], 0) = (.brk, ([4], 22)) := by
  intro k hk
  obtain ⟨k, rfl⟩ : ∃ j, k = j + 1 := ⟨k - 1, by omega⟩
  rfl

/-- The hypothesis of `C59_ended`: a left join over one row whose filter raises. -/
example : (next (overList { counting with leftFilter := some fun _ w => (.error "TypeError", w) })
    (.items [5]) [] (.left false ⟨.top, ⟨none, false⟩⟩) 5 ⟨5, false, ([1, 2], 0)⟩).1.ended = true := by rfl

end Verif.JoinGen
