import Verif.Model.Bytes
/-
yEnc: http://www.yenc.org/yenc-draft.1.3.txt
-/
namespace Rescene.Spec

/-- The characters an encoder usually escapes: NUL, TAB, LF, CR, ESC, space, dot and `=`. -/
def Critical (c : UInt8) : Prop := c ∈ ([0, 9, 10, 13, 27, 32, 46, 61] : List UInt8)

/-- `text` encodes `data`: each byte plus 42, where `=` is always escaped, any other
critical character may be, and an escape is `=` and the character plus 64. -/
inductive YEncodes : Bytes → Bytes → Prop
  | nil : YEncodes [] []
  | plain (o : UInt8) (data text : Bytes) (ho : o + 42 ≠ 61) (h : YEncodes data text) :
      YEncodes (o :: data) ((o + 42) :: text)
  | escaped (o : UInt8) (data text : Bytes) (ho : Critical (o + 42)) (h : YEncodes data text) :
      YEncodes (o :: data) (61 :: (o + 42 + 64) :: text)

/-- The news protocol doubles a dot at the beginning of a line. -/
def dotStuffed (l : Bytes) : Bytes := if l.head? = some 46 then 46 :: l else l

end Rescene.Spec
