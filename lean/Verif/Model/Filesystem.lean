import Verif.Model.StringArray
import Verif.Model.Ledger

/-!
# Model of `src/nx_filesystem.c`

A file system maps paths to files and directories; links and devices do not appear. `fopen` for reading succeeds for a directory, as it
does on Linux. `may` says where the process may make directories. The order that `alphasort` gives is a parameter.
-/

namespace Nx

/-- What is at a path: a file that the process may read or not, or a directory that it may read or not, with the names in it. -/
inductive FNode
  | file (readable : Bool)
  | dir (readable : Bool) (names : List Bytes)
deriving DecidableEq, Repr

/-- A file system. -/
abbrev FSys := Bytes → Option FNode

/-- `opendir`. -/
def fsOpendir (fs : FSys) (p : Bytes) : Bool :=
  match fs p with
  | some (.dir true _) => true
  | _ => false

/-- `fopen` with mode `rb`. -/
def fsFopen (fs : FSys) (p : Bytes) : Bool :=
  match fs p with
  | some (.file true) => true
  | some (.dir true _) => true
  | _ => false

/-- `mkdir` with mode 0700. -/
def fsMkdir (may : Bytes → Bool) (fs : FSys) (p : Bytes) : Option FSys :=
  match fs p with
  | none => if may p then some (fun q => if q = p then some (.dir true [[46], [46, 46]]) else fs q) else none
  | some _ => none

/-- `nx_check_dir`, `src/nx_filesystem.c:59-69`; `closes` says whether `closedir` succeeds. -/
def fsCheckDir (fs : FSys) (p : Bytes) (closes : Bool) : Bool := if !fsOpendir fs p || !closes then false else true

/-- `nx_check_file`, `src/nx_filesystem.c:71-83`. -/
def fsCheckFile (fs : FSys) (p : Bytes) : Bool := if fsFopen fs p then true else false

/-- `nx_ensure_dir`, `src/nx_filesystem.c:85-95`, when nothing else happens meanwhile. -/
def fsEnsureDir (may : Bytes → Bool) (fs : FSys) (p : Bytes) : Res FSys :=
  if fsCheckDir fs p true then .ok fs
  else
    match fsMkdir may fs p with
    | some fs' => .ok fs'
    | none => .fatal

/-- Where a process is in `nx_ensure_dir`: before the check, behind a check that has found no directory, returned, or dead. -/
inductive EPhase
  | start
  | checked
  | done
  | failed
deriving DecidableEq, Repr

/-- The next system call of a process in `nx_ensure_dir`, `src/nx_filesystem.c:89-94`. -/
def fsEnsureStep (may : Bytes → Bool) (p : Bytes) (fs : FSys) : EPhase → FSys × EPhase
  | .start => (fs, if fsCheckDir fs p true then .done else .checked)
  | .checked =>
    match fsMkdir may fs p with
    | some fs' => (fs', .done)
    | none => (fs, .failed)
  | e => (fs, e)

/-- Several processes in `nx_ensure_dir` for the same path; the schedule says whose system call is next. -/
def fsEnsureAll (may : Bytes → Bool) (p : Bytes) : List Nat → FSys × List EPhase → FSys × List EPhase
  | [], s => s
  | i :: is, s =>
    match s.2[i]? with
    | some e => fsEnsureAll may p is ((fsEnsureStep may p s.1 e).1, s.2.set i (fsEnsureStep may p s.1 e).2)
    | none => fsEnsureAll may p is s

/-- The blocks that `scandir` allocates: one for every entry, and the array of pointers. -/
def scanAlloc (σ : Mem) : List Bytes → Mem × List (Nat × Bytes)
  | [] => (σ, [])
  | n :: ns => ((scanAlloc (memAlloc σ).1 ns).1, ((memAlloc σ).2, n) :: (scanAlloc (memAlloc σ).1 ns).2)

/-- The loop of `nx_scan_dir`, `src/nx_filesystem.c:48-51`, from entry `i`. -/
def scanLoop (arr : Nat) : List (Nat × Bytes) → Nat → Mem → Heap → SArr → Res (Mem × Heap × SArr)
  | [], _, σ, h, a => .ok (σ, h, a)
  | e :: es, i, σ, h, a => do
    memUse σ arr
    memUse σ e.1
    let r ← saSet h a i (.ext e.2)
    let σ ← memFree σ (some e.1)
    scanLoop arr es (i + 1) σ r.1 r.2

/-- `nx_scan_dir`, `src/nx_filesystem.c:37-57`; `le` is the order of `alphasort`. -/
def fsScanDir (le : Bytes → Bytes → Bool) (fs : FSys) (p : Bytes) (σ : Mem) (h : Heap) : Res (Mem × Heap × SArr) :=
  match fs p with
  | some (.dir true names) => do
    let ns := names.mergeSort le
    let r ← saResize h saAlloc ns.length
    let s := scanAlloc σ ns
    let arr := memAlloc s.1
    let q ← scanLoop arr.2 s.2 0 arr.1 r.1 r.2
    let σ ← memFree q.1 (some arr.2)
    pure (σ, q.2)
  | _ => .fatal

end Nx
