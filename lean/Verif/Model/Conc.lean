/-!
# Goroutines and channels

Two step machines: the striped parallel loops started by `DoInParallelAndWait` (primitives/utils.go:48-59) and the worker
pool of `SliceByVector` (slicers/slice_by_vector.go:48-50, 94-123, 147-160).  A step is one atomic action of one
goroutine; an execution is any sequence of steps.
-/
namespace Goosli.Conc

/-- `Exec step evs s t`: the sequence of actions `evs` leads from `s` to `t`. -/
inductive Exec {ε σ : Type} (step : ε → σ → σ → Prop) : List ε → σ → σ → Prop
  | refl (s : σ) : Exec step [] s s
  | snoc {evs : List ε} {e : ε} {s t u : σ} (h : Exec step evs s t) (hs : step e t u) : Exec step (evs ++ [e]) s u

/-! ## striped loops -/

/-- State of `DoInParallelAndWait(work)` with `work(wi, wn)` = `for i := wi; i < n; i += wn { slots[i] = f(i) }`.
`pcs` has one entry per goroutine started so far: the loop variable, or `none` after `wg.Done()`. -/
structure Fill (β : Type) where
  slots : List β
  pcs : List (Option Nat)
  /-- the counter of the `WaitGroup` -/
  wg : Nat
  returned : Bool

/-- the state at the call: the slice made with zero values, no goroutine started (primitives/utils.go:49-51,
primitives/mesh.go:38, primitives/stl.go:97) -/
def Fill.init {β : Type} (zero : β) (n : Nat) : Fill β := ⟨List.replicate n zero, [], 0, false⟩

/-- actions: main starts worker `w`; worker `w` writes slot `i`; worker `w` ends; main passes `wg.Wait()` -/
inductive FEv where
  | spawn (w : Nat)
  | write (w i : Nat)
  | done (w : Nat)
  | wait
  deriving DecidableEq

/-- one atomic action; `wn` = runtime.NumCPU() -/
inductive Fill.Step {β : Type} (f : Nat → β) (n wn : Nat) : FEv → Fill β → Fill β → Prop
  /-- primitives/utils.go:51-56: `wg.Add(1); go func(wi, wn)` -/
  | spawn (s : Fill β) (h : s.pcs.length < wn) :
      Step f n wn (.spawn s.pcs.length) s { s with pcs := s.pcs ++ [some s.pcs.length], wg := s.wg + 1 }
  /-- one iteration of worker `w`: primitives/mesh.go:41-43, primitives/stl.go:100-106 -/
  | write (s : Fill β) (w i : Nat) (hw : s.pcs[w]? = some (some i)) (hi : i < n) :
      Step f n wn (.write w i) s { s with slots := s.slots.set i (f i), pcs := s.pcs.set w (some (i + wn)) }
  /-- the loop of worker `w` ends: `wg.Done()`, primitives/utils.go:55 -/
  | done (s : Fill β) (w i : Nat) (hw : s.pcs[w]? = some (some i)) (hi : ¬ i < n) :
      Step f n wn (.done w) s { s with pcs := s.pcs.set w none, wg := s.wg - 1 }
  /-- `wg.Wait()` returns, primitives/utils.go:58 -/
  | wait (s : Fill β) (h : s.pcs.length = wn) (hz : s.wg = 0) (hr : s.returned = false) :
      Step f n wn .wait s { s with returned := true }

/-! ## worker pool -/

/-- a goroutine running `slicingWorker` (slicers/slice_by_vector.go:147-160) -/
inductive Worker (R : Type) where
  /-- at `range in` -/
  | idle
  /-- has the result of a job, at `out <- ...` -/
  | busy (r : R)
  /-- `in` was closed and empty -/
  | stopped

/-- Main goroutine, the two channels (capacity `n` each, oldest element first) and the workers. -/
structure Pool (J R : Type) where
  /-- jobs the main goroutine still has to send -/
  todo : List J
  closed : Bool
  inq : List J
  ws : List (Worker R)
  outq : List R
  /-- the results received so far, `layers[0..]` -/
  got : List R

/-- state after `DoInParallel(slicingWorker(in, out))`, slicers/slice_by_vector.go:48-50, primitives/utils.go:61-68 -/
def Pool.init {J R : Type} (jobs : List J) (wn : Nat) : Pool J R :=
  ⟨jobs, false, [], List.replicate wn .idle, [], []⟩

/-- actions of the main goroutine and of worker `w` -/
inductive PEv where
  | send
  | close
  | take (w : Nat)
  | put (w : Nat)
  | stop (w : Nat)
  | recv
  deriving DecidableEq

/-- one atomic action; `n` is the capacity of both channels and the number of results read; `f` is the computation of a
worker on a job -/
inductive Pool.Step {J R : Type} (f : J → R) (n : Nat) : PEv → Pool J R → Pool J R → Prop
  /-- `in <- job`, line 114; blocks while the buffer is full -/
  | send (s : Pool J R) (j : J) (t : List J) (h : s.todo = j :: t) (hc : s.inq.length < n) :
      Step f n .send s { s with todo := t, inq := s.inq ++ [j] }
  /-- `close(in)`, line 117 -/
  | close (s : Pool J R) (h : s.todo = []) (hc : s.closed = false) : Step f n .close s { s with closed := true }
  /-- a worker receives a job and computes, lines 150-157 -/
  | take (s : Pool J R) (w : Nat) (j : J) (t : List J) (hw : s.ws[w]? = some .idle) (h : s.inq = j :: t) :
      Step f n (.take w) s { s with inq := t, ws := s.ws.set w (.busy (f j)) }
  /-- a worker sends its result, line 157; blocks while the buffer is full -/
  | put (s : Pool J R) (w : Nat) (r : R) (hw : s.ws[w]? = some (.busy r)) (hc : s.outq.length < n) :
      Step f n (.put w) s { s with outq := s.outq ++ [r], ws := s.ws.set w .idle }
  /-- a worker sees the closed and empty channel, line 150 -/
  | stop (s : Pool J R) (w : Nat) (hw : s.ws[w]? = some .idle) (h : s.inq = []) (hc : s.closed = true) :
      Step f n (.stop w) s { s with ws := s.ws.set w .stopped }
  /-- `layers[i] = <-out`, lines 121-123 -/
  | recv (s : Pool J R) (r : R) (t : List R) (h : s.outq = r :: t) (hc : s.closed = true) (hn : s.got.length < n) :
      Step f n .recv s { s with outq := t, got := s.got ++ [r] }

/-- the main goroutine has left the loop of lines 121-123 -/
def Pool.finished {J R : Type} (n : Nat) (s : Pool J R) : Prop := s.closed = true ∧ s.got.length = n

end Goosli.Conc
