/-!
# Model of the file system layers

/repo/cmd/tsgolint/overlayfs.go, /repo/internal/utils/overlay_vfs.go, the cached `ReadFile` of
/repo/patches/0005-perf-vfs-cache-ReadFile-results-in-cachedvfs.patch and the source file cache of /repo/internal/utils/host.go:71-107.
Paths and contents are lists of characters.
-/
namespace Tsgolint.Vfs

abbrev Str := List Char

/-- The methods of `vfs.FS` with their arguments (`time.Time` as a number; the walk function of `WalkDir` by an identity). -/
inductive Call
  | useCaseSensitiveFileNames
  | fileExists (path : Str)
  | readFile (path : Str)
  | writeFile (path data : Str)
  | appendFile (path data : Str)
  | remove (path : Str)
  | chtimes (path : Str) (aTime mTime : Int)
  | directoryExists (path : Str)
  | getAccessibleEntries (path : Str)
  | stat (path : Str)
  | walkDir (root : Str) (walkFn : Nat)
  | realpath (path : Str)
deriving DecidableEq

/-- `vfs.Entries` -/
structure Entries where
  files : List Str
  directories : List Str
deriving DecidableEq

/-- `overlayVFSFileInfo` (overlay_vfs.go:72-76) or whatever the underlying system returns. -/
inductive Info
  | virtual (name : Str) (size : Nat)
  | other (id : Nat)
deriving DecidableEq

/-- Results of the methods.  `text none` is `("", false)`. -/
inductive Ans
  | bool (b : Bool)
  | text (t : Option Str)
  | error (e : Option Nat)
  | entries (e : Entries)
  | info (i : Option Info)
  | path (p : Str)
  | panic
deriving DecidableEq

/-- A file system: what a call answers and how it changes the state `σ`. -/
abbrev Fs (σ : Type) := Call → σ → Ans × σ

/-- overlayfs.go:10-74 `overlayFS`; `overrides` is the Go map. -/
def overlay {σ : Type} (overrides : Str → Option Str) (underlying : Fs σ) : Fs σ := fun c s =>
  match c with
  -- overlayfs.go:21-23
  | .useCaseSensitiveFileNames => underlying .useCaseSensitiveFileNames s
  -- overlayfs.go:25-30
  | .fileExists path => if (overrides path).isSome then (.bool true, s) else underlying (.fileExists path) s
  -- overlayfs.go:32-37
  | .readFile path => match overrides path with
    | some content => (.text (some content), s)
    | none => underlying (.readFile path) s
  -- overlayfs.go:39-74
  | .writeFile path data => underlying (.writeFile path data) s
  | .appendFile path data => underlying (.appendFile path data) s
  | .remove path => underlying (.remove path) s
  | .chtimes path a m => underlying (.chtimes path a m) s
  | .directoryExists path => underlying (.directoryExists path) s
  | .getAccessibleEntries path => underlying (.getAccessibleEntries path) s
  | .stat path => underlying (.stat path) s
  | .walkDir root f => underlying (.walkDir root f) s
  | .realpath path => underlying (.realpath path) s

/-- headless.go:254-257: the overlay is only put in place when there are overrides.  The map is a list of entries with distinct keys. -/
def headlessFs {σ : Type} (overrides : List (Str × Str)) (base : Fs σ) : Fs σ :=
  if overrides.length > 0 then overlay (fun p => (overrides.find? (·.1 = p)).map (·.2)) base else base

/-- A sequence of calls: the answers and the final state. -/
def calls {σ : Type} (fs : Fs σ) : List Call → σ → List Ans × σ
  | [], s => ([], s)
  | c :: cs, s =>
    let (a, s) := fs c s
    let (as, s) := calls fs cs s
    (a :: as, s)

/-! ## The overlay used for virtual files (`OverlayVFS`) -/

/-- `strings.HasPrefix` -/
def hasPrefix : Str → Str → Bool
  | _, [] => true
  | [], _ :: _ => false
  | a :: s, b :: p => a = b && hasPrefix s p

/-- `strings.HasSuffix(s, "/")` -/
def endsWithSlash (s : Str) : Bool := s.getLast? = some '/'

/-- `strings.CutPrefix` -/
def cutPrefix (s p : Str) : Option Str := if hasPrefix s p then some (s.drop p.length) else none

/-- `strings.Cut(s, "/")`: the part before the first slash and whether there is one. -/
def cut : Str → Str × Bool
  | [] => ([], false)
  | c :: cs => if c = '/' then ([], true) else
    let (b, ok) := cut cs
    (c :: b, ok)

/-- overlay_vfs.go:39-42, 55-58 -/
def dirPrefix (normalize : Str → Str) (path : Str) : Str :=
  let n := normalize path
  if !endsWithSlash n then n ++ ['/'] else n

/-- overlay_vfs.go:60-71: the loop of `GetAccessibleEntries` over the map, in the order of enumeration. -/
def addEntries (pre : Str) : List (Str × Str) → Entries → Entries
  | [], r => r
  | (v, _) :: vs, r => match cutPrefix v pre with
    | none => addEntries pre vs r
    | some rest =>
      let (before, ok) := cut rest
      if ok then addEntries pre vs { r with directories := r.directories ++ [before] }
      else addEntries pre vs { r with files := r.files ++ [rest] }

/-- overlay_vfs.go:14-172 `OverlayVFS`; `files` are the entries of `VirtualFiles` in the order of this enumeration, `normalize` is
`tspath.NormalizePath`. -/
def overlayVfs {σ : Type} (normalize : Str → Str) (files : List (Str × Str)) (fs : Fs σ) : Fs σ := fun c s =>
  let look path := (files.find? (·.1 = path)).map (·.2)
  match c with
  | .useCaseSensitiveFileNames => fs .useCaseSensitiveFileNames s
  | .fileExists path => if (look path).isSome then (.bool true, s) else fs (.fileExists path) s
  | .readFile path => match look path with
    | some src => (.text (some src), s)
    | none => fs (.readFile path) s
  | .directoryExists path =>
    if files.any (fun v => hasPrefix v.1 (dirPrefix normalize path)) then (.bool true, s) else fs (.directoryExists path) s
  | .getAccessibleEntries path =>
    let (a, s) := fs (.getAccessibleEntries path) s
    match a with
    | .entries r => (.entries (addEntries (dirPrefix normalize path) files r), s)
    | a => (a, s)
  | .stat path => match look path with
    | some src => (.info (some (.virtual path src.length)), s)
    | none => fs (.stat path) s
  | .walkDir root f => fs (.walkDir root f) s
  | .realpath path => if (look path).isSome then (.path path, s) else fs (.realpath path) s
  | .writeFile path data => if (look path).isSome then (.panic, s) else fs (.writeFile path data) s
  | .appendFile path data => if (look path).isSome then (.panic, s) else fs (.appendFile path data) s
  | .remove path => if (look path).isSome then (.panic, s) else fs (.remove path) s
  | .chtimes path a m => if (look path).isSome then (.panic, s) else fs (.chtimes path a m) s

/-! ## Cached reads, concurrently -/

/-- A goroutine inside `ReadFile(path)` (patch 0005).  The cache is always enabled (`From` enables it and nothing in this repository
disables it). -/
inductive Reader
  /-- before `readFileCache.Load(path)` -/
  | loading (path : Str)
  /-- before `fs.ReadFile(path)` -/
  | reading (path : Str)
  /-- before `readFileCache.Store` -/
  | storing (path : Str) (result : Option Str)
  /-- returned -/
  | returned (path : Str) (result : Option Str)

/-- The shared state. -/
structure CState where
  disk : Str → Option Str
  cache : Str → Option (Option Str)
  readers : List Reader

/-- One atomic action. -/
inductive CStep : CState → CState → Prop
  /-- the disk changes -/
  | change {s d} : CStep s { s with disk := d }
  /-- a goroutine calls `ReadFile` -/
  | start {s path} : CStep s { s with readers := s.readers ++ [.loading path] }
  | hit {s pre post path r} : s.readers = pre ++ .loading path :: post → s.cache path = some r →
      CStep s { s with readers := pre ++ .returned path r :: post }
  | miss {s pre post path} : s.readers = pre ++ .loading path :: post → s.cache path = none →
      CStep s { s with readers := pre ++ .reading path :: post }
  | read {s pre post path} : s.readers = pre ++ .reading path :: post →
      CStep s { s with readers := pre ++ .storing path (s.disk path) :: post }
  | store {s pre post path r} : s.readers = pre ++ .storing path r :: post →
      CStep s { s with readers := pre ++ .returned path r :: post, cache := fun p => if p = path then some r else s.cache p }

/-- A new cache (`cachedvfs.From`). -/
def cInit (disk : Str → Option Str) : CState := ⟨disk, fun _ => none, []⟩

/-- Any number of steps. -/
inductive CSteps : CState → CState → Prop
  | refl {s} : CSteps s s
  | tail {s t u} : CSteps s t → CStep t u → CSteps s u

/-! ## The source file cache -/

/-- A goroutine inside `GetSourceFile` (host.go:85-107) after it has read the text: `key` is the cache key (parse options, text,
script kind); source files are identified by the address of the object. -/
inductive Getter (K : Type)
  /-- before `sourceFileCache.Load(key)`, host.go:98 -/
  | loading (key : K)
  /-- before `parser.ParseSourceFile`, host.go:102 -/
  | parsing (key : K)
  /-- before `LoadOrStore`, host.go:103 -/
  | storing (key : K) (ptr : Nat)
  | returned (key : K) (ptr : Nat)

/-- The shared state; `heap[ptr]` is the key the object was parsed from. -/
structure GState (K : Type) where
  cache : K → Option Nat
  heap : List K
  getters : List (Getter K)

variable {K : Type} [DecidableEq K]

/-- One atomic action. -/
inductive GStep : GState K → GState K → Prop
  | start {s key} : GStep s { s with getters := s.getters ++ [.loading key] }
  | hit {s pre post key ptr} : s.getters = pre ++ .loading key :: post → s.cache key = some ptr →
      GStep s { s with getters := pre ++ .returned key ptr :: post }
  | miss {s pre post key} : s.getters = pre ++ .loading key :: post → s.cache key = none →
      GStep s { s with getters := pre ++ .parsing key :: post }
  | parse {s pre post key} : s.getters = pre ++ .parsing key :: post →
      GStep s { s with getters := pre ++ .storing key s.heap.length :: post, heap := s.heap ++ [key] }
  /-- `LoadOrStore`, the key being present -/
  | loaded {s pre post key ptr old} : s.getters = pre ++ .storing key ptr :: post → s.cache key = some old →
      GStep s { s with getters := pre ++ .returned key old :: post }
  /-- `LoadOrStore`, the key being absent -/
  | stored {s pre post key ptr} : s.getters = pre ++ .storing key ptr :: post → s.cache key = none →
      GStep s { s with getters := pre ++ .returned key ptr :: post, cache := fun k => if k = key then some ptr else s.cache k }

inductive GReachable : GState K → Prop
  | init : GReachable ⟨fun _ => none, [], []⟩
  | step {s t} : GReachable s → GStep s t → GReachable t

end Tsgolint.Vfs
