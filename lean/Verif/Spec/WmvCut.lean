import Verif.Spec.Wmv
/-
What it means that a WMV sample was cut out of a movie.
-/
namespace Rescene.Spec
open Rescene

/-- The data `d` starts in a movie with the byte `k` of the payload `p`, the payloads `a` come before
it and `b` after it: from there on the movie has this data, and at no earlier place it looks like
that.  To look like that means to have the first 256 bytes of the data, or as many of them as there is
room for in the movie up to the end of the payload `p`. -/
structure StartsIn (d : Bytes) (n : Nat) (a : List WmvPiece) (p : WmvPiece) (k : Nat) (b : List WmvPiece) : Prop where
  stream : p.stream = n
  inside : k < p.data.length
  data : d <+: p.data.drop k ++ streamData b n
  fresh : ∀ i < (streamData a n).length + k, ¬ ((streamData a n ++ p.data).drop i).take (d.take 256).length <+: d.take 256

/-- The sample was cut out of the movie: it has data of all streams of the movie, and for each stream
there is a place in the movie, another one for each stream perhaps and in the middle of a payload
perhaps, where its data starts. -/
structure WmvCutFrom (sample movie : WmvFile) : Prop where
  ok : movie.Ok
  streams : ∀ p ∈ movie.pieces, streamData sample.pieces p.stream ≠ []
  used : ∀ p ∈ sample.pieces, streamData sample.pieces p.stream ≠ []
  some : sample.pieces ≠ []
  starts : ∀ n, streamData sample.pieces n ≠ [] →
    ∃ a p k b, movie.pieces = a ++ p :: b ∧ StartsIn (streamData sample.pieces n) n a p k b

end Rescene.Spec
