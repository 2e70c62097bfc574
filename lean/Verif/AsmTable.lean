import Verif.RseqArch
/-
The assembler directives around a helper: critical section descriptor, signature, section layout.

`RseqConc.lean` lets the kernel know the three addresses of a helper's critical section.  The real
kernel reads them from bytes: a 64-bit pointer in `struct rseq`, a 32-byte descriptor, and a 4-byte
signature before the abort handler.  This file models the directives that produce those bytes:
`include/rseq/arch/generic/common.h:14-76` and the `RSEQ_SIG`, `RSEQ_ASM_U64_PTR`, `RSEQ_ASM_U32`,
`RSEQ_ASM_DEFINE_ABORT`, `RSEQ_ASM_DEFINE_TEARDOWN` and `RSEQ_ASM_STORE_RSEQ_CS` macros of each
architecture header.

Simplifications:
* An instruction is `code i`: its encoding is not modelled, only its size `sz i`.
* Numeric local labels `Nf`/`Nb` are resolved in the order of the source text (GNU as rule).  Local
  labels used only by jumps (5, 8, 222, 333, 779, 880, 881) are left out.
* Addresses are natural numbers; the linker's choice of section addresses is a parameter.
-/

namespace Verif.Asm

open Verif.Rseq (Arch Byte Prog pos)

/-- Instruction set variants that matter for the signature (mips.h:37-55). -/
inductive Isa
  | plain | micro | nano
  deriving DecidableEq, Repr

/-- A build of the library. -/
structure Cfg where
  arch : Arch
  /-- data is big endian -/
  be : Bool
  /-- bytes of a pointer -/
  w : Nat
  isa : Isa
  deriving DecidableEq, Repr

/-- Builds that the headers support. -/
def Cfg.valid (c : Cfg) : Bool :=
  (c.isa == .plain || c.arch == .mips) &&
  match c.arch with
  | .x86_64 => !c.be && c.w == 8
  | .i386 => !c.be && c.w == 4
  | .aarch64 => c.w == 8                       -- both byte orders, aarch64.h:23-32
  | .riscv => !c.be && (c.w == 8 || c.w == 4)  -- riscv.h:28-42
  | .ppc => c.w == 8 || (c.w == 4 && c.be)     -- ppc.h:85-91
  | .s390 => c.be && (c.w == 8 || c.w == 4)
  | .mips => c.w == 8 || c.w == 4              -- mips.h:19-21
  | .loongarch => !c.be && c.w == 8            -- loongarch.h:22-24
  | .arm => c.w == 4                           -- both byte orders, arm.h:66-70

/-- Sections the macros switch to. -/
inductive Sec
  | text | failure | cs | ptrs | exits
  deriving DecidableEq, Repr

/-- A local label reference: `Nf` or `Nb`. -/
structure Ref where
  n : Nat
  fwd : Bool
  deriving DecidableEq, Repr

/-- `Nf` -/
def f (n : Nat) : Ref := ⟨n, true⟩
/-- `Nb` -/
def b (n : Nat) : Ref := ⟨n, false⟩

/-- Expressions in data directives. -/
inductive Expr
  | lit (v : Nat)
  | lab (r : Ref)
  /-- difference of two labels -/
  | sub (x y : Ref)
  /-- a C label `%l[name]` at address `a` -/
  | ext (a : Nat)
  deriving DecidableEq, Repr

/-- Assembler source items. -/
inductive Item
  /-- instruction number `i` of the helper -/
  | code (i : Nat)
  | lbl (n : Nat)
  /-- `.long` / `.word` -/
  | u32 (e : Expr)
  /-- `.quad` / `.dword` -/
  | u64 (e : Expr)
  /-- `.byte` -/
  | byte (v : Nat)
  /-- `.inst`: an instruction given as a number; stored in the byte order of code -/
  | inst (v : Nat)
  | balign (a : Nat)
  | push (s : Sec)
  | pop
  deriving DecidableEq, Repr

/-! ### Macros -/

/-- `RSEQ_SIG` as the C code passes it to the kernel. -/
def sig (c : Cfg) : Nat :=
  match c.arch with
  | .x86_64 | .i386 => 0x53053053                             -- x86.h:26
  | .aarch64 => if c.be then 0x00bc28d4 else 0xd428bc00       -- aarch64.h:23-31
  | .arm => if c.be then 0xf3def5e7 else 0xe7f5def3           -- arm.h:66-70
  | .ppc => 0x0fe5000b                                        -- ppc.h:26
  | .riscv => 0xf1401073                                      -- riscv.h:29
  | .s390 => 0xB2FF0FFF                                       -- s390.h:25
  | .loongarch => 0x002a0010                                  -- loongarch.h:30
  | .mips =>                                                  -- mips.h:40-54
    match c.isa, c.be with
    | .nano, false => 0x03500010
    | .nano, true => 0x00100350
    | .micro, false => 0xd4070000
    | .micro, true => 0x0000d407
    | .plain, _ => 0x0350000d

/-- `RSEQ_SIG_CODE`, aarch64.h:23 -/
def sigCode : Nat := 0xd428bc00

/-- `RSEQ_ASM_U64_PTR` -/
def u64Ptr (c : Cfg) (e : Expr) : List Item :=
  match c.arch with
  | .x86_64 => [.u64 e]                                       -- x86.h:86
  | .i386 => [.u32 e, .u32 (.lit 0)]                          -- x86.h:88
  | .aarch64 | .riscv | .loongarch => [.u64 e]                -- aarch64.h:110, riscv.h:80, loongarch.h:76
  | .arm => if c.be then [.u32 (.lit 0), .u32 e] else [.u32 e, .u32 (.lit 0)]   -- arm.h:102-106
  | .ppc => if c.w = 8 then [.u64 e] else [.u32 (.lit 0), .u32 e]               -- ppc.h:85-91
  | .s390 => if c.w = 8 then [.u64 e] else [.u32 (.lit 0), .u32 e]              -- s390.h:79-84
  | .mips => if c.w = 8 then [.u64 e]                                           -- mips.h:110-117
      else if c.be then [.u32 (.lit 0), .u32 e] else [.u32 e, .u32 (.lit 0)]

/-- `__RSEQ_ASM_DEFINE_CS_FIELDS`, common.h:14-20 -/
def csFields (c : Cfg) (version flags : Nat) (start off abort : Expr) : List Item :=
  [.u32 (.lit version), .u32 (.lit flags)] ++ u64Ptr c start ++ u64Ptr c off ++ u64Ptr c abort

/-- `RSEQ_ASM_DEFINE_TABLE`, common.h:23-53 -/
def defineTable (c : Cfg) (label : Nat) (start commit abort : Ref) : List Item :=
  [.push .cs, .balign 32, .lbl label] ++
    csFields c 0 0 (.lab start) (.sub commit start) (.lab abort) ++
  [.pop, .push .ptrs] ++ u64Ptr c (.lab (b label)) ++ [.pop]

/-- `RSEQ_ASM_DEFINE_EXIT_POINT`, common.h:72-76 -/
def defineExit (c : Cfg) (start : Ref) (target : Nat) : List Item :=
  [.push .exits] ++ u64Ptr c (.lab start) ++ u64Ptr c (.ext target) ++ [.pop]

/-- Instructions `i, i+1, ..., j-1`. -/
def codes (i j : Nat) : List Item := (List.range' i (j - i)).map .code

/-- `RSEQ_ASM_DEFINE_ABORT(4, teardown, abort)` with the handler `h`; for arm, mips and loongarch also
the descriptor copy labelled 3. -/
def defineAbort (c : Cfg) (h : List Item) : List Item :=
  match c.arch with
  | .x86_64 | .i386 =>                                        -- x86.h:106-119
    [.push .failure, .byte 0x0f, .byte 0xb9, .byte 0x3d, .u32 (.lit (sig c)), .lbl 4] ++ h ++ [.pop]
  | .ppc | .s390 =>                                           -- ppc.h:108-114, s390.h:101-107
    [.push .failure, .u32 (.lit (sig c)), .lbl 4] ++ h ++ [.pop]
  | .aarch64 =>                                               -- aarch64.h:131-138 (after `b 222f`)
    [.inst sigCode, .lbl 4] ++ h
  | .riscv =>                                                 -- riscv.h:102-109 (after `j 222f`)
    [.balign 4, .u32 (.lit (sig c)), .lbl 4] ++ h
  | .arm | .mips | .loongarch =>                              -- arm.h:134-166, mips.h:126-158, loongarch.h:86-118
    [.balign 32, .lbl 3] ++ csFields c 0 0 (.lab (b 1)) (.sub (b 2) (b 1)) (.lab (f 4)) ++
      [.u32 (.lit (sig c)), .lbl 4] ++ h

/-- `RSEQ_ASM_DEFINE_TEARDOWN` with the handler `h` -/
def defineTeardown (c : Cfg) (h : List Item) : List Item :=
  match c.arch with
  | .x86_64 | .i386 | .s390 | .ppc => [.push .failure] ++ h ++ [.pop]   -- x86.h:130-135, s390.h:119-124
  | _ => h                                                              -- arm.h:179-182, mips.h:171-174, loongarch.h:131-134

/-- Labels the helpers of an architecture use: descriptor table, start, post-commit. -/
def tableL (a : Arch) : Nat :=
  match a with
  | .aarch64 | .riscv => 1
  | .arm | .mips | .loongarch => 9
  | _ => 3
def startL (a : Arch) : Nat :=
  match a with
  | .aarch64 | .riscv => 2
  | _ => 1
def commitL (a : Arch) : Nat :=
  match a with
  | .aarch64 | .riscv => 3
  | _ => 2

/-- The descriptor named in `RSEQ_ASM_STORE_RSEQ_CS`: `3b`, `1b`, or `3f` (the copy). -/
def storeRef (a : Arch) : Ref :=
  match a with
  | .aarch64 | .riscv => b 1
  | .arm | .mips | .loongarch => f 3
  | _ => b 3

/-- Where the parts of a helper begin: `Prog` without its code. -/
structure Shape where
  start : Nat
  commit : Nat
  abort : Nat
  ne : Nat
  len : Nat

/-- Everything before `RSEQ_ASM_STORE_RSEQ_CS` ends. -/
def head (c : Cfg) (s : Shape) (exits : List Nat) : List Item :=
  defineTable c (tableL c.arch) (f (startL c.arch)) (f (commitL c.arch)) (f 4) ++
  exits.flatMap (defineExit c (f (startL c.arch))) ++
  codes 0 s.start

/-- What follows: label start, critical section, label post-commit, the rest. -/
def tail (c : Cfg) (s : Shape) : List Item :=
  [.lbl (startL c.arch)] ++ codes s.start s.commit ++ [.lbl (commitL c.arch)] ++
  codes s.commit s.abort ++
  defineAbort c (codes s.abort s.ne) ++ defineTeardown c (codes s.ne s.len)

/-- The source text of a helper. -/
def source (c : Cfg) (s : Shape) (exits : List Nat) : List Item := head c s exits ++ tail c s

/-! ### Assembling -/

/-- Next multiple of `a`. -/
def alignUp (x a : Nat) : Nat := (x + (a - 1)) / a * a

/-- Location counters. -/
abbrev Loc := Sec → Nat

def Loc.set (l : Loc) (s : Sec) (v : Nat) : Loc := fun x => if x = s then v else l x

/-- Address after an item that starts at `a`. -/
def next (sz : Nat → Nat) (a : Nat) : Item → Nat
  | .code i => a + sz i
  | .u32 _ => a + 4
  | .u64 _ => a + 8
  | .byte _ => a + 1
  | .inst _ => a + 4
  | .balign k => alignUp a k
  | .lbl _ | .push _ | .pop => a

/-- Assembler state: current section, saved sections, location counters. -/
structure St where
  cur : Sec
  saved : List Sec
  loc : Loc

/-- Process one item. -/
def step (sz : Nat → Nat) (s : St) : Item → St
  | .push x => ⟨x, s.cur :: s.saved, s.loc⟩
  | .pop => ⟨s.saved.headD .text, s.saved.tail, s.loc⟩
  | it => ⟨s.cur, s.saved, s.loc.set s.cur (next sz (s.loc s.cur) it)⟩

/-- An item with its section and address. -/
structure Placed where
  sec : Sec
  addr : Nat
  item : Item

/-- Addresses of all items. -/
def place (sz : Nat → Nat) (s : St) : List Item → List Placed
  | [] => []
  | it :: r => ⟨s.cur, s.loc s.cur, it⟩ :: place sz (step sz s it) r

/-- Assembler state after the items. -/
def run (sz : Nat → Nat) (s : St) (l : List Item) : St := l.foldl (step sz) s

/-- Address of the first label `n` in a list. -/
def firstL (n : Nat) : List Placed → Option Nat
  | [] => none
  | p :: r => if p.item = .lbl n then some p.addr else firstL n r

/-- Address a reference means at a place: `pre` before it (nearest last), `post` after it. -/
def resolve (pre post : List Placed) (r : Ref) : Option Nat :=
  if r.fwd then firstL r.n post else firstL r.n pre.reverse

/-- Value of an expression at a place. -/
def value (pre post : List Placed) : Expr → Option Nat
  | .lit v => some v
  | .ext a => some a
  | .lab r => resolve pre post r
  | .sub x y => do
    let p ← resolve pre post x
    let q ← resolve pre post y
    pure ((p + 2 ^ 64 - q) % 2 ^ 64)

/-- The `k` bytes of number `v` in the given byte order. -/
def bytes (be : Bool) (k v : Nat) : List Byte :=
  (List.range k).map fun i => BitVec.ofNat 8 (v / 256 ^ pos be k i)

/-- Code is little endian on aarch64 whatever the data (aarch64.h:18-22). -/
def encode (be : Bool) (pre post : List Placed) : Item → Option (List Byte)
  | .u32 e => (value pre post e).map (bytes be 4)
  | .u64 e => (value pre post e).map (bytes be 8)
  | .byte v => some [BitVec.ofNat 8 v]
  | .inst v => some (bytes false 4 v)
  | _ => some []

/-- Memory into which the assembled text was loaded: every directive's bytes are at its address. -/
def Loaded (be : Bool) (mem : Nat → Byte) (l : List Placed) : Prop :=
  ∀ pre p post, l = pre ++ p :: post → ∃ bs, encode be pre post p.item = some bs ∧
    ∀ i (h : i < bs.length), mem (p.addr + i) = bs[i]

/-- The assembled helper: sections start where `base` says, all code sizes are given by `sz`. -/
def assembled (c : Cfg) (sz : Nat → Nat) (base : Loc) (s : Shape) (exits : List Nat) : List Placed :=
  place sz ⟨.text, [], base⟩ (source c s exits)

/-- Address of instruction `i`. -/
def codeAddr (l : List Placed) (i : Nat) : Option Nat := (l.find? (fun p => p.item = .code i)).map (·.addr)

/-- The descriptor address that `RSEQ_ASM_STORE_RSEQ_CS` stores: its reference resolved at the end of
the `head`. -/
def storedPtr (c : Cfg) (sz : Nat → Nat) (base : Loc) (s : Shape) (exits : List Nat) : Option Nat :=
  let st : St := ⟨.text, [], base⟩
  resolve (place sz st (head c s exits)) (place sz (run sz st (head c s exits)) (tail c s)) (storeRef c.arch)

/-! ### The `rseq_cs` field -/

/-- Offset of `rseq_cs.arch.ptr` in `struct rseq_abi`, abi.h:119-129; the x86 macros use
`RSEQ_ASM_CS_OFFSET` = 8 (x86.h:39). -/
def ptrOffset (c : Cfg) : Nat :=
  match c.arch with
  | .x86_64 | .i386 => 8
  | _ => if c.w = 8 then 8 else if c.be then 12 else 8

/-- Store of a `k`-byte number. -/
def put (be : Bool) (mem : Nat → Byte) (a k v : Nat) : Nat → Byte := fun x =>
  if a ≤ x ∧ x < a + k then BitVec.ofNat 8 (v / 256 ^ pos be k (x - a)) else mem x

/-- The store instruction of `RSEQ_ASM_STORE_RSEQ_CS` (`movq`, `movl`, `str`, `std`, `stw`, `sd`, ...):
a pointer-sized store to `rseq_cs.arch.ptr`; and `rseq_clear_rseq_cs` (rseq.h:211-215) with `v = 0`. -/
def storeCs (c : Cfg) (mem : Nat → Byte) (area v : Nat) : Nat → Byte :=
  put c.be mem (area + ptrOffset c) c.w v

/-! ### Forming the descriptor's address -/

/-- ppc64 (ppc.h:131-139): `lis r,x@highest; ori r,r,x@higher; rldicr r,r,32,31; oris r,r,x@high;
ori r,r,x@l`. `lis` sign-extends its operand. -/
def ppc64Addr (x : BitVec 64) : BitVec 64 :=
  let highest := x.extractLsb' 48 16
  let higher := x.extractLsb' 32 16
  let high := x.extractLsb' 16 16
  let l := x.extractLsb' 0 16
  let r := (highest.signExtend 64) <<< 16             -- lis
  let r := r ||| higher.setWidth 64                   -- ori
  let r := r <<< 32                                   -- rldicr 32,31
  let r := r ||| (high.setWidth 64 <<< 16)            -- oris
  r ||| l.setWidth 64                                 -- ori

/-- ppc32 (ppc.h:141-146): `lis r,x@ha; addi r,r,x@l`. `x@ha` is the high half of `x + 0x8000`;
`addi` sign-extends. -/
def ppc32Addr (x : BitVec 32) : BitVec 32 :=
  let ha := (x + 0x8000#32).extractLsb' 16 16
  let l := x.extractLsb' 0 16
  (ha.setWidth 32 <<< 16) + l.signExtend 32

/-- aarch64 (aarch64.h:153-159): `adrp r,x; add r,r,:lo12:x`. The linker puts the page distance into
`adrp`. -/
def aarch64Addr (pc x : BitVec 64) : BitVec 64 :=
  let page (y : BitVec 64) : BitVec 64 := y &&& ~~~ 0xfff#64
  let imm := page x - page pc
  (page pc + imm) + (x &&& 0xfff#64)

/-- x86-32 (x86.h:172-186): `call` leaves the address of label 881 in `%eax`;
`leal (cs - 881b)(%eax),%eax`. -/
def i386Addr (ref x : BitVec 32) : BitVec 32 := ref + (x - ref)

end Verif.Asm
