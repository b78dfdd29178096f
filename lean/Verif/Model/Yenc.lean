import Verif.Model.Crc
import Verif.Model.Str
/-
Decoding yEnc articles: /repo/usenet/yenc.py, without the compiled `_yenc` library.  The
fields of the `=y` lines (`ySplit`) are not modelled: the checksum they give is a parameter.
-/
namespace Rescene

/-- `data.replace(bytes([a, b]), bytes([r]))`. -/
def replace2 (a b r : UInt8) : Bytes → Bytes
  | [] => []
  | [x] => [x]
  | x :: y :: t => if x = a ∧ y = b then r :: replace2 a b r t else x :: replace2 a b r (y :: t)

/-- yenc.py:56 `YDEC_TRANS`. -/
def ydecTrans : Bytes := ((List.range 42).map fun i => UInt8.ofNat (214 + i)) ++ (List.range 214).map fun i => UInt8.ofNat i

/-- `data.translate(table)`. -/
def translate (table data : Bytes) : Bytes := data.filterMap fun b => table[b.toNat]?

/-- yenc.py:93-98: undoing the escapes and the shift. -/
def ydecText (data : Bytes) : Bytes :=
  translate ydecTrans
    (([0, 9, 10, 13, 27, 32, 46, 61] : List UInt8).foldl (fun d i => replace2 61 (i + 64) i d) data)

/-- yenc.py:223-238 `strip`. -/
def ystrip (lines : List Bytes) : List Bytes :=
  let lines := lines.dropWhile (·.isEmpty)
  let lines := (lines.reverse.dropWhile (·.isEmpty)).reverse
  lines.map fun l => if (str "..").map UInt8.ofNat <+: l then l.drop 1 else l

/-- yenc.py:161-178: looks for `=ybegin ` in the first ten lines: that line, the `=ypart `
line behind it and the other lines behind them.  When nothing follows, `data[i + 1]` is an
`IndexError` that ends the search: then `all` lines stay. -/
def yhead (all : List Bytes) : Nat → List Bytes → Option (Bytes × Option Bytes × List Bytes)
  | 0, _ => none
  | _ + 1, [] => none
  | n + 1, l :: rest =>
    if (str "=ybegin ").map UInt8.ofNat <+: l then
      match rest with
      | [] => some (l, none, all)
      | p :: rest' =>
        if (str "=ypart ").map UInt8.ofNat <+: p then some (l, some p, rest') else some (l, none, p :: rest')
    else yhead all n rest

/-- yenc.py:181-188: looks for `=yend ` in the last ten lines, given in reverse. -/
def ytail : Nat → List Bytes → Option (Bytes × List Bytes)
  | 0, _ => none
  | _ + 1, [] => none
  | n + 1, l :: rest =>
    if (str "=yend ").map UInt8.ofNat <+: l then some (l, rest) else ytail n rest

/-- What decoding can end in. -/
inductive YErr where
  | noData | noEnd | crc | notYenc
  deriving DecidableEq

/-- yenc.py:58-154 `decode` of yEnc data: only the decoded data.  `field` gives the checksum
in a `=yend` line: `pcrc32` if the flag is set, else `crc32`.  Posts that are not yEnc are
`notYenc`: what is done with them is not modelled. -/
def yenDecode (field : Bool → Bytes → Option (BitVec 32)) (lines : List Bytes) (segPart ignoreCrc : Bool) : Except YErr Bytes :=
  let lines := ystrip lines
  if lines = [] then .error .noData
  else
    match yhead lines 10 lines with
    | none => .error .notYenc
    | some (_, ypart, rest) =>
      match ytail 10 rest.reverse with
      | some (yend, body) =>
        let data := ydecText body.reverse.flatten
        if segPart = false ∧ ignoreCrc = false then
          if field ypart.isSome yend = some (crc32 data 0) then .ok data else .error .crc
        else .ok data
      | none => if segPart then .ok (ydecText rest.flatten) else .error .noEnd

end Rescene
