import Verif.Model.TriangleMesh

/-
  Model of the multi-threaded bounding box, sources/TriangleMesh.cpp 362-413.

  A transition system: the main thread creates the worker threads, inserts the remaining vertices, and joins
  the workers one after the other; each created worker inserts its vertices into its own sub box. A step of
  any thread which can make one may be next. One `Insert` is one step: between its creation and its end a
  worker is the only thread which accesses its sub box (`sub` is only read by the main thread after the
  `join`), so a finer interleaving cannot be observed. Failure to create a thread is not modelled.
-/
set_option autoImplicit false

namespace Geom.TMesh.Threads

variable {K : Type} [CLt K]

/-- sources/TriangleMesh.cpp 387-410: Where the main thread is. -/
inductive Pc where
  /-- line 387: about to create thread `i`, or to leave the loop -/
  | spawn (i : ℕ)
  /-- line 402: about to insert vertex `i`, or to leave the loop -/
  | rest (i : ℕ)
  /-- line 406: about to join thread `i`, or to leave the loop -/
  | join (i : ℕ)
  | done
  /-- undefined behaviour has happened -/
  | ub

/-- sources/TriangleMesh.cpp 382-410: The state of all threads. -/
structure St (K : Type) where
  pc : Pc
  /-- for each worker the loop counter, line 364; only meaningful for created workers -/
  progress : ℕ → ℕ
  /-- line 385, `subBoxes` -/
  sub : ℕ → AABB.Box 3 K
  /-- line 400 -/
  box : AABB.Box 3 K

/-- sources/TriangleMesh.cpp 387-397: The workers that have been created. -/
def created (threadCount : ℕ) : Pc → ℕ
  | .spawn i => i
  | _ => threadCount

/-- sources/TriangleMesh.cpp 382-387: The state at line 387. -/
def start (lo hi : K) : St K :=
  ⟨.spawn 0, fun _ => 0, fun _ => AABB.reset lo hi, AABB.reset lo hi⟩

/-- sources/TriangleMesh.cpp, lines 387-410: a step of the main thread; `none` if it cannot make one (`join` waits, or it is done). -/
def mainStep (vs : List (Vertex K)) (threadCount perThread : ℕ) (s : St K) : Option (St K) :=
  match s.pc with
  | .spawn i =>
    -- `&(vertices[verticesPerThread*i])` is an element access
    if i < threadCount then some { s with pc := if perThread * i < vs.length then .spawn (i + 1) else .ub }
    else some { s with pc := .rest (perThread * threadCount) }
  | .rest i =>
    if i < vs.length then
      match vs[i]? with
      | some v => some { s with pc := .rest (i + 1), box := AABB.insert s.box (coords v.position) }
      | none => some { s with pc := .ub }
    else some { s with pc := .join 0 }
  | .join i =>
    if i < threadCount then
      if perThread ≤ s.progress i then some { s with pc := .join (i + 1), box := AABB.insertBox s.box (s.sub i) }
      else none
    else some { s with pc := .done }
  | .done => none
  | .ub => none

/-- sources/TriangleMesh.cpp, lines 362-366: a step of worker `i`; `none` if it has not been created or has ended. -/
def workerStep (vs : List (Vertex K)) (threadCount perThread : ℕ) (i : ℕ) (s : St K) : Option (St K) :=
  if i < created threadCount s.pc ∧ s.progress i < perThread then
    match vs[perThread * i + s.progress i]? with
    | some v => some { s with
        progress := Function.update s.progress i (s.progress i + 1)
        sub := Function.update s.sub i (AABB.insert (s.sub i) (coords v.position)) }
    | none => some { s with pc := .ub }
  else none

/-- sources/TriangleMesh.cpp 362-413: A step of any thread. -/
inductive Step (vs : List (Vertex K)) (threadCount perThread : ℕ) : St K → St K → Prop
  | main {s t} (h : mainStep vs threadCount perThread s = some t) : Step vs threadCount perThread s t
  | worker {s t} (i : ℕ) (h : workerStep vs threadCount perThread i s = some t) : Step vs threadCount perThread s t

/-- sources/TriangleMesh.cpp 362-413: The states which an execution can reach. -/
inductive Reach (lo hi : K) (vs : List (Vertex K)) (threadCount perThread : ℕ) : St K → Prop
  | start : Reach lo hi vs threadCount perThread (start lo hi)
  | step {s t} (hs : Reach lo hi vs threadCount perThread s) (h : Step vs threadCount perThread s t) :
      Reach lo hi vs threadCount perThread t

/-- sources/TriangleMesh.cpp, lines 373-374: does the function fall back to `BoundingBox`? -/
def fallback (vs : List (Vertex K)) (threadCount : ℕ) : Bool :=
  decide (threadCount < 2) || decide (vs.length / threadCount < 64)

/-- sources/TriangleMesh.cpp, lines 376-379: the clamping of the thread count. -/
def clampCount (vs : List (Vertex K)) (threadCount : ℕ) : ℕ :=
  let t := if threadCount < 1 then 1 else threadCount
  if t > vs.length then vs.length else t

/-- sources/TriangleMesh.cpp, lines 368-413, `BoundingBoxMultiThreaded`: the boxes that some execution returns. -/
inductive Returns (lo hi : K) (m : Mesh K) (threadCount : ℕ) : AABB.Box 3 K → Prop
  | sequential (h : fallback m.vertices threadCount = true) : Returns lo hi m threadCount (boundingBox lo hi m)
  | threads {s} (h : fallback m.vertices threadCount = false)
      (hr : Reach lo hi m.vertices (clampCount m.vertices threadCount)
        (m.vertices.length / clampCount m.vertices threadCount) s)
      (hd : s.pc = .done) : Returns lo hi m threadCount s.box

end Geom.TMesh.Threads
