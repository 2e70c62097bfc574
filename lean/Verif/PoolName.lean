/-
The name of a pool: what `memfd_create` is asked for (src/rseq-mempool.c:701-728, 773-779), when the name is set (1010-1019),
and the name in messages (189-193).

Strings are lists of bytes without the terminating zero; objects in memory are lists of bytes.  The buffer of line 705 is not
initialised: its old content is arbitrary.  The system call looks at the name as mm/memfd.c does: at most 250 bytes are looked
at for the zero (`strnlen_user(uname, MFD_NAME_MAX_LEN + 1)` with MFD_NAME_MAX_LEN = 255 - 6); a longer name is EINVAL.
Reading past the object that holds the name is an outcome of its own.  Other failures of range creation are in
`RangeSys` (C66); here an attempt either gets as far as line 777 or not.
-/
namespace Verif.PoolName

abbrev Bytes := List Nat

def ofStr (s : String) : Bytes := s.toList.map Char.toNat

/-- The constant part of the format of line 709. -/
def suffix : Bytes := ofStr ":rseq-mempool"

/-- The constant of line 712. -/
def anonymous : Bytes := ofStr "<anonymous>:rseq-mempool"

/-- `snprintf(buf, cap, …)` where the formatted string is `s`: the buffer afterwards. -/
def snprintf (cap : Nat) (old s : Bytes) : Bytes :=
  if cap = 0 then old
  else
    let w := s.take (cap - 1) ++ [0]
    w ++ old.drop w.length

inductive NameRes where
  | ok (name : Bytes)
  | einval
  | outOfBounds
  deriving DecidableEq

/-- The name check of the system call, on the object the argument points to. -/
def kernelName (obj : Bytes) : NameRes :=
  if 0 ∈ obj.take 250 then .ok (obj.takeWhile (· ≠ 0))
  else if 250 ≤ obj.length then .einval
  else .outOfBounds

/-- 708-715: the object given to `memfd_create`. -/
def nameArg (poolname : Option Bytes) (buf : Bytes) : Bytes :=
  match poolname with
  | some s => snprintf 249 buf (s ++ suffix)
  | none => anonymous ++ [0]

structure Pool where
  cow : Bool
  name : Option Bytes

/-- 740-865 as far as names go: `reached` tells whether the attempt gets to line 777; `buf` is the stack at line 705. -/
def rangeCreate (p : Pool) (reached : Bool) (buf : Bytes) : List NameRes :=
  if reached && p.cow then [kernelName (nameArg p.name buf)] else []

/-- 1002-1026: the first range, then the name.  `made` tells whether the range was created, `dup` whether `strdup` succeeds. -/
def create (cow : Bool) (poolName : Option Bytes) (buf : Bytes) (reached made dup : Bool) : List NameRes × Option Pool :=
  let pool : Pool := ⟨cow, none⟩
  let log := rangeCreate pool reached buf
  if !made then (log, none)
  else
    match poolName with
    | none => (log, some pool)
    | some s => if dup then (log, some { pool with name := some s }) else (log, none)

/-- What happens later: the caller overwrites or frees its string, an allocation makes a range (1094). -/
inductive Op where
  | callerString (s : Option Bytes)
  | range (reached : Bool) (buf : Bytes)

structure St where
  caller : Option Bytes
  pool : Pool
  log : List NameRes

def step (s : St) : Op → St
  | .callerString c => { s with caller := c }
  | .range r buf => { s with log := s.log ++ rangeCreate s.pool r buf }

def run (s : St) (ops : List Op) : St := ops.foldl step s

/-- 189-193. -/
def getPoolName (p : Pool) : Bytes :=
  match p.name with
  | some s => s
  | none => ofStr "<anonymous>"

theorem suffix_len : suffix.length = 13 := rfl

theorem suffix_nz : 0 ∉ suffix := by decide

theorem takeWhile_nz (s t : Bytes) (h : 0 ∉ s) : (s ++ 0 :: t).takeWhile (· ≠ 0) = s := by
  induction s with
  | nil => simp
  | cons a s ih =>
    have ha : a ≠ 0 := fun e => h (by simp [e])
    have hs : 0 ∉ s := fun e => h (by simp [e])
    simpa [ha] using ih hs

theorem kernel_named (s buf : Bytes) (h : 0 ∉ s) :
    kernelName (nameArg (some s) buf) = .ok ((s ++ suffix).take 248) := by
  have hz : 0 ∉ (s ++ suffix).take 248 := fun hm => by
    rcases List.mem_append.1 (List.mem_of_mem_take hm) with h' | h'
    · exact h h'
    · exact suffix_nz h'
  have hl : ((s ++ suffix).take 248).length ≤ 248 := by rw [List.length_take]; omega
  simp only [nameArg, snprintf, kernelName]
  rw [if_neg (show ¬ (249 = 0) by decide), show 249 - 1 = 248 from rfl]
  generalize hw : (s ++ suffix).take 248 = w at hz hl ⊢
  rw [if_pos, List.append_assoc, List.singleton_append, takeWhile_nz w _ hz]
  rw [List.take_append, List.mem_append]
  left
  rw [List.take_of_length_le (by simp; omega)]
  simp

theorem kernel_anon (buf : Bytes) : kernelName (nameArg none buf) = .ok anonymous := by
  show kernelName (anonymous ++ [0]) = _
  decide

theorem run_pool (ops : List Op) : ∀ s : St, (run s ops).pool = s.pool := by
  induction ops with
  | nil => intro s; rfl
  | cons o ops ih =>
    intro s
    show (run (step s o) ops).pool = _
    rw [ih]
    cases o <;> rfl

theorem run_log (P : NameRes → Prop) (ops : List Op) : ∀ s : St,
    (∀ r ∈ s.log, P r) →
    (∀ reached buf, Op.range reached buf ∈ ops → ∀ x ∈ rangeCreate s.pool reached buf, P x) →
    ∀ r ∈ (run s ops).log, P r := by
  induction ops with
  | nil => intro s h _; exact h
  | cons o ops ih =>
    intro s h ho
    show ∀ r ∈ (run (step s o) ops).log, P r
    cases o with
    | callerString c =>
      exact ih _ h fun re b hm => ho re b (List.mem_cons_of_mem _ hm)
    | range re b =>
      refine ih _ ?_ fun re b hm => ho re b (List.mem_cons_of_mem _ hm)
      intro r hr
      rcases List.mem_append.1 hr with h1 | h1
      · exact h r h1
      · exact ho re b (List.mem_cons_self ..) r h1

end Verif.PoolName
