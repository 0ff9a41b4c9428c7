import Verif.Model.Basic

/-
Model of the recording and replaying communicators, `ndsl/comm/caching_comm.py`.

* One rank. The program is any deterministic strategy: its next call depends on the calls and results so far.
* What the wrapped communicator delivers is any function of the calls so far (`under`).
* A communicator obtained from `Split` is a number; each has its own recording (`split_data` holds the numbers).
* `Get_rank`, `Get_size`, barriers and the calls that always raise are left out; requests are numbered in the
  order they are made.
-/
namespace NDSL.Caching

/-- calls on communicator `c` -/
inductive Call where
  | bcast (c : Nat)
  | scatter (c : Nat)
  /-- `recv`: a receive buffer is passed (only roots do) -/
  | gather (c : Nat) (recv : Bool)
  | send (c : Nat)
  | isend (c : Nat)
  | recv (c : Nat)
  | irecv (c : Nat)
  | wait (req : Nat)
  | allreduce (c : Nat)
  | split (c : Nat)
  deriving DecidableEq

/-- what the caller gets: nothing, an object, the contents of its receive buffer, a request, a communicator -/
inductive Resp (V : Type) where
  | none
  | obj (v : V)
  | filled (v : V)
  | req (i : Nat)
  | comm (c : Nat)
  | raised (e : Err)
  deriving DecidableEq

abbrev Trace (V : Type) := List (Call × Resp V)

/-- `CachingCommData`, 43-58 (the counters 60-64 are in `Reader`) -/
structure Data (V : Type) where
  bcasts : List V
  /-- a `None` receive buffer is recorded as `none` -/
  bufs : List (Option V)
  objs : List V
  splits : List Nat

/-- `CachingCommWriter` (and those split from it): recordings, number of communicators, and for each request
the communicator of its receive (`none` for a send) -/
structure Writer (V : Type) where
  data : Nat → Data V
  ncomm : Nat
  reqs : List (Option Nat)

/-- `CachingCommWriter.__init__`, 175-184: communicator 0 -/
def Writer.init {V : Type} : Writer V := ⟨fun _ => ⟨[], [], [], []⟩, 1, []⟩

variable {V : Type}

def upd {α : Type} (f : Nat → α) (c : Nat) (g : α → α) : Nat → α := fun x => if x = c then g (f x) else f x

def addBuf (w : Writer V) (c : Nat) (v : Option V) : Writer V :=
  { w with data := upd w.data c fun d => { d with bufs := d.bufs ++ [v] } }

/-- one call on the recording communicator; `v` is what the wrapped communicator delivers -/
def Writer.step (w : Writer V) (v : V) : Call → Writer V × Resp V
  | .bcast c =>   -- 192-195
    ({ w with data := upd w.data c fun d => { d with bcasts := d.bcasts ++ [v] } }, .obj v)
  | .scatter c => (addBuf w c (some v), .filled v)   -- 203-205
  | .gather c true => (addBuf w c (some v), .filled v)   -- 207-209
  | .gather c false => (addBuf w c none, .none)
  | .send _ => (w, .none)   -- 214-215
  | .isend _ => ({ w with reqs := w.reqs ++ [none] }, .req w.reqs.length)   -- 217-218
  | .recv c => (addBuf w c (some v), .filled v)   -- 220-222
  | .irecv c => ({ w with reqs := w.reqs ++ [some c] }, .req w.reqs.length)   -- 224-228
  | .wait i =>   -- 24-26
    match w.reqs[i]? with
    | some (some c) => (addBuf w c (some v), .filled v)
    | some none => (w, .none)
    | none => (w, .raised .indexError)
  | .allreduce c =>   -- 242-247
    ({ w with data := upd w.data c fun d => { d with objs := d.objs ++ [v] } }, .obj v)
  | .split c =>   -- 233-237
    ({ w with
        data := upd w.data c fun d => { d with splits := d.splits ++ [w.ncomm] }
        ncomm := w.ncomm + 1 }, .comm w.ncomm)

/-- counters of `CachingCommData`, 60-64, per communicator, and the data held by each request
(`none`: `NullRequest`) -/
structure Reader (V : Type) where
  iBcast : Nat → Nat
  iBuf : Nat → Nat
  iObj : Nat → Nat
  iSplit : Nat → Nat
  reqs : List (Option (Option V))

/-- a freshly loaded recording, 159-162 -/
def Reader.init {V : Type} : Reader V := ⟨fun _ => 0, fun _ => 0, fun _ => 0, fun _ => 0, []⟩

def inc (f : Nat → Nat) (c : Nat) : Nat → Nat := upd f c (· + 1)

/-- assign a recorded buffer to the caller's -/
def assign : Option V → Resp V
  | some v => .filled v
  | none => .raised .typeError

/-- `get_buffer` then assignment: `Scatter`, `Recv`, `Gather` with a buffer, 71-74, 122-127, 137-138 -/
def readBuf (D : Nat → Data V) (r : Reader V) (c : Nat) : Reader V × Resp V :=
  match (D c).bufs[r.iBuf c]? with
  | some v => ({ r with iBuf := inc r.iBuf c }, assign v)
  | none => (r, .raised .indexError)

/-- one call on the replaying communicator over the recording `D` -/
def Reader.step (D : Nat → Data V) (r : Reader V) : Call → Reader V × Resp V
  | .bcast c =>   -- 66-69, 113-114
    match (D c).bcasts[r.iBcast c]? with
    | some v => ({ r with iBcast := inc r.iBcast c }, .obj v)
    | none => (r, .raised .indexError)
  | .scatter c => readBuf D r c
  | .gather c true => readBuf D r c
  | .gather _ false => (r, .none)
  | .send _ => (r, .none)   -- 131-132
  | .isend _ => ({ r with reqs := r.reqs ++ [none] }, .req r.reqs.length)   -- 134-135
  | .recv c => readBuf D r c
  | .irecv c =>   -- 140-141
    match (D c).bufs[r.iBuf c]? with
    | some v => ({ r with iBuf := inc r.iBuf c, reqs := r.reqs ++ [some v] }, .req r.reqs.length)
    | none => (r, .raised .indexError)
  | .wait i =>   -- 34-35, 39-40
    match r.reqs[i]? with
    | some (some v) => (r, assign v)
    | some none => (r, .none)
    | none => (r, .raised .indexError)
  | .allreduce c =>   -- 76-79, 150-153
    match (D c).objs[r.iObj c]? with
    | some v => ({ r with iObj := inc r.iObj c }, .obj v)
    | none => (r, .raised .indexError)
  | .split c =>   -- 81-84, 146-148
    match (D c).splits[r.iSplit c]? with
    | some k => ({ r with iSplit := inc r.iSplit c }, .comm k)
    | none => (r, .raised .indexError)

/-- the first `n` calls of a program on the recording communicator -/
def record (prog : Trace V → Option Call) (under : Trace V → V) : Nat → Writer V × Trace V
  | 0 => (Writer.init, [])
  | n + 1 =>
    let s := record prog under n
    match prog s.2 with
    | none => s
    | some call =>
      let o := s.1.step (under s.2) call
      (o.1, s.2 ++ [(call, o.2)])

/-- the first `n` calls of a program on the replaying communicator -/
def replay (prog : Trace V → Option Call) (D : Nat → Data V) : Nat → Reader V × Trace V
  | 0 => (Reader.init, [])
  | n + 1 =>
    let s := replay prog D n
    match prog s.2 with
    | none => s
    | some call =>
      let o := s.1.step D call
      (o.1, s.2 ++ [(call, o.2)])

end NDSL.Caching
