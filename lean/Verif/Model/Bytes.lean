/-
Byte strings, `struct` packing, file reads and Python exceptions.

These are the primitives of Python and of its standard library that the code in
/repo uses (`struct.pack`, `struct.unpack_from`, slices, `file.read`); they do not
model a particular file of /repo.
-/
namespace Rescene

/-- A Python `bytes` value. -/
abbrev Bytes := List UInt8

/-- The Python exceptions the modelled code can raise.  `fuel` is not a Python
exception: it marks a loop that ran out of its step budget, and is proved
unreachable wherever a loop takes a budget. -/
inductive Err where
  | structError      -- struct.error
  | envError         -- EnvironmentError / IOError / OSError
  | valueError       -- ValueError
  | attrError        -- AttributeError
  | unicodeError     -- UnicodeDecodeError / UnicodeEncodeError
  | indexError       -- IndexError
  | keyError         -- KeyError
  | typeError        -- TypeError
  | assertError      -- AssertionError
  | overflowError    -- OverflowError
  | unboundLocal     -- UnboundLocalError
  | notSrr           -- rescene.main.NotSrrFile
  | dupeName         -- rescene.main.DupeFileName
  | fileNotFound     -- rescene.main.FileNotFound
  | rarNotSupported  -- rescene.main.RarNotSupported
  | badSize          -- "file size does not match" / "not enough data"
  | emptyRepo        -- rescene.main.EmptyRepository
  | incompleteSample -- resample IncompleteSample
  | invalidData      -- resample.main.InvalidDataException
  | keyboard         -- KeyboardInterrupt / any BaseException from outside
  | other
  | fuel
  deriving DecidableEq, Repr

/-- Result of Python code: a value or an exception. -/
abbrev Res := Except Err

deriving instance DecidableEq for Except

@[simp] theorem ok_bind {α β} (a : α) (f : α → Res β) :
    ((Except.ok a : Res α) >>= f) = f a := rfl
@[simp] theorem error_bind {α β} (e : Err) (f : α → Res β) :
    ((Except.error e : Res α) >>= f) = Except.error e := rfl
@[simp] theorem pure_eq_ok {α} (a : α) : (pure a : Res α) = Except.ok a := rfl
@[simp] theorem throw_eq_error {α} (e : Err) : (throw e : Res α) = Except.error e := rfl
@[simp] theorem map_ok {α β} (a : α) (f : α → β) :
    (f <$> (Except.ok a : Res α)) = Except.ok (f a) := rfl
@[simp] theorem map_error {α β} (e : Err) (f : α → β) :
    (f <$> (Except.error e : Res α)) = Except.error e := rfl

theorem bind_eq_ok {α β} {x : Res α} {f : α → Res β} {b : β} :
    (x >>= f) = Except.ok b ↔ ∃ a, x = Except.ok a ∧ f a = Except.ok b := by
  cases x <;> simp

/-- `k` little endian bytes of `n` (struct codes `<B`, `<H`, `<I`, `<Q`: 1, 2, 4, 8). -/
def le : Nat → Nat → Bytes
  | 0, _ => []
  | k + 1, n => UInt8.ofNat n :: le k (n / 256)

/-- Value of little endian bytes. -/
def ofLe : Bytes → Nat
  | [] => 0
  | b :: bs => b.toNat + 256 * ofLe bs

/-- `k` big endian bytes of `n` (struct codes `>B`, `>H`, `>I`, `>Q`). -/
def be (k n : Nat) : Bytes := (le k n).reverse

/-- Value of big endian bytes. -/
def ofBe (bs : Bytes) : Nat := ofLe bs.reverse

/-- `struct.pack` of one unsigned field of `k` bytes: raises `struct.error` when out of range. -/
def pack (k n : Nat) : Res Bytes :=
  if n < 256 ^ k then .ok (le k n) else .error .structError

/-- Same, big endian. -/
def packBe (k n : Nat) : Res Bytes :=
  if n < 256 ^ k then .ok (be k n) else .error .structError

/-- Python slice `buf[a:b]` for non-negative `a`, `b`. -/
def slice (buf : Bytes) (a b : Nat) : Bytes := (buf.take b).drop a

/-- `struct.unpack_from` of one unsigned little endian field of `k` bytes at
offset `off`: raises `struct.error` when the buffer is too short. -/
def unpackAt (k : Nat) (buf : Bytes) (off : Nat) : Res Nat :=
  if off + k ≤ buf.length then .ok (ofLe (slice buf off (off + k))) else .error .structError

/-- Same, big endian. -/
def unpackBeAt (k : Nat) (buf : Bytes) (off : Nat) : Res Nat :=
  if off + k ≤ buf.length then .ok (ofBe (slice buf off (off + k))) else .error .structError

/-- `f.seek(pos); f.read(n)` on a file with contents `data`: short reads at the end. -/
def readAt (data : Bytes) (pos n : Nat) : Bytes := (data.drop pos).take n

end Rescene
