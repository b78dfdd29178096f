import Verif.Model.Blocks
/-
The compression parameters of a file block and what is tried to reproduce compressed
archives: /repo/rescene/rar.py:1114-1171, /repo/rescene/main.py:1762-1924, 2138-2145 and
2603-2620.
-/
namespace Rescene

/-- rar.py:1114-1127 `get_compression_parameter`. -/
def compressionParameter (method : Nat) : Res Str :=
  if method = 0x30 then .ok (str "-m0")
  else if method = 0x31 then .ok (str "-m1")
  else if method = 0x32 then .ok (str "-m2")
  else if method = 0x33 then .ok (str "-m3")
  else if method = 0x34 then .ok (str "-m4")
  else if method = 0x35 then .ok (str "-m5")
  else .error .keyError

/-- rar.py:1129-1149 `get_dictionary_size_parameter`. -/
def dictParameter (flags : Nat) : Str :=
  if flags &&& 0xC0 = 0xC0 then str "-mdG"
  else if flags &&& 0xA0 = 0xA0 then str "-mdF"
  else if flags &&& 0x80 = 0x80 then str "-mdE"
  else if flags &&& 0x60 = 0x60 then str "-mdD"
  else if flags &&& 0x40 = 0x40 then str "-mdC"
  else if flags &&& 0x20 = 0x20 then str "-mdB"
  else if flags &&& 0x00 = 0x00 then str "-mdA"
  else str ""

/-- rar.py:1157-1171 `get_dict_size`; `none` is the value of a function that ends without
`return`. -/
def dictSize (flags : Nat) : Option Nat :=
  if flags &&& 0xC0 = 0xC0 then some (4096 * 1024)
  else if flags &&& 0xA0 = 0xA0 then some (2048 * 1024)
  else if flags &&& 0x80 = 0x80 then some (1024 * 1024)
  else if flags &&& 0x60 = 0x60 then some (512 * 1024)
  else if flags &&& 0x40 = 0x40 then some (256 * 1024)
  else if flags &&& 0x20 = 0x20 then some (128 * 1024)
  else if flags &&& 0x00 = 0x00 then some (64 * 1024)
  else none

/-- rar.py:1154-1155 `get_dictionary`: the number that is looked up. -/
def dictionaryIndex (flags : Nat) : Nat := (flags &&& 0xE0) >>> 5

/-- main.py:1177-1182 `RarMtSettings`. -/
structure MtSettings where
  mtSet : List Int := []
  mtMin : Int := 0
  mtMax : Int := 0

/-- main.py:1815-1826 `max_thread_count` of RAR version `major.minor`. -/
def maxThreads (major minor : Nat) : Int := if major < 4 ∨ (major = 4 ∧ minor < 20) then 16 else 32

/-- main.py:1828-1836 `min_thread_count`. -/
def minThreads (major minor : Nat) : Int := if major < 4 ∨ (major = 4 ∧ minor < 20) then 0 else 1

/-- main.py:1885-1924 `increase_thread_count`.  `cur` is `none` for the empty `threads` and
else the number behind `-mt`; the result is `none` for `False`, where `threads` stays. -/
def increaseThreads (s : MtSettings) (major minor : Nat) (cur : Option Int) : Option Int :=
  let mtcount := maxThreads major minor
  let mtMin := if s.mtMin > 0 then s.mtMin else minThreads major minor
  let mtMax := if s.mtMax > 0 then s.mtMax else mtcount
  match cur with
  | none =>
    if s.mtSet ≠ [] then
      s.mtSet.find? fun count => mtMin ≤ count && count ≤ mtMax && count ≤ mtcount
    else if mtMin ≤ mtcount then some mtMin
    else none
  | some c =>
    if s.mtSet ≠ [] then
      s.mtSet.find? fun count => mtMin ≤ count && count ≤ mtMax && count ≤ mtcount && count > c
    else if c < mtcount ∧ c < mtMax then some (c + 1)
    else none

/-- main.py:2430-2433: `while args.increase_thread_count(rar)`: the thread counts that are
tried when none of them gives the wanted result. -/
def threadsTried (s : MtSettings) (major minor : Nat) : Nat → Option Int → Res (List Int)
  | 0, _ => .error .fuel
  | fuel + 1, cur =>
    match increaseThreads s major minor cur with
    | none => .ok []
    | some c => do
      let r ← threadsTried s major minor fuel (some c)
      return c :: r

/-- main.py:1762-1780 `get_rar_executables`: dates of the executables in the repository,
sorted; `previous` is the one that was right for an earlier file. -/
def rarExecutables {α : Type} (older : α → Bool) (previous : List α) (l : List α) : List α :=
  let before := (l.filter older).reverse
  match l.filter (fun x => !older x) with
  | [] => previous ++ before
  | a :: after => previous ++ [a] ++ before ++ after

/-- main.py:2138-2145 `get_full_packed_size`: name and packed size of the blocks. -/
def fullPackedSize (name : Str) : Nat → List (Str × Nat) → Nat
  | size, [] => size
  | size, (n, p) :: l =>
    if n = name then fullPackedSize name (size + p) l
    else if size ≠ 0 then size
    else fullPackedSize name size l

/-- main.py:2603-2620 `calculate_size_volume`. -/
def volumeSize : Nat → List Block → Nat
  | size, [] => size
  | size, b :: l =>
    if b.btype = 0x72 ∧ size ≠ 0 then size
    else if b.btype = 0x7B then size + b.hsize
    else if b.btype = 0x69 ∨ b.btype = 0x6A ∨ b.btype = 0x71 ∨ b.btype = 0x6B then volumeSize size l
    else if b.btype = 0x6C then volumeSize (size + b.addSize) l
    else volumeSize (size + b.hsize + b.addSize) l

/-- main.py:642-684 `_rarreader_usenet`: the loop.  `init` is `init_data` for a server,
`attempt` what the reader gives at the n-th attempt. -/
def usenetLoop {β : Type} (caught : Err → Bool) (init : Nat → Res Unit) (attempt : Nat → Res β) (retries : Nat) :
    Nat → Nat → Nat → Res β
  | 0, _, _ => .error .fuel
  | fuel + 1, stop, n =>
    match attempt n with
    | .ok b => .ok b
    | .error e =>
      if caught e then
        if stop ≤ retries then do
          let _ ← init (stop + 1)
          usenetLoop caught init attempt retries fuel (stop + 1) (n + 1)
        else .error e
      else .error e

/-- main.py:642-684 `_rarreader_usenet`. -/
def rarreaderUsenet {β : Type} (caught : Err → Bool) (init : Nat → Res Unit) (attempt : Nat → Res β) (retries : Nat) : Res β :=
  match attempt 0 with
  | .ok b => .ok b
  | .error e =>
    if caught e then do
      let _ ← init 0
      usenetLoop caught init attempt retries (retries + 3) 0 1
    else .error e

end Rescene
