import Verif.Model.Liner
/-!
# What a line receiver should do, byte by byte
-/
namespace Verif.Liner

/-- A reader that knows no segments: in line mode bytes are collected until they end with the delimiter. -/
def byte {A : Type} (P : App A) (delim : Bytes) (st : St A) (b : Nat) : St A :=
  if st.disconnecting then st
  else if st.lineMode then
    let acc := st.buffer ++ [b]
    if delim.isSuffixOf acc then
      let l := acc.take (acc.length - delim.length)
      let (a, raw, lose) := P.line st.app l
      { lineMode := !raw, buffer := [], disconnecting := lose, app := a, trace := st.trace ++ [.line l] }
    else { st with buffer := acc }
  else
    let (a, done) := P.raw st.app b
    { st with lineMode := done, app := a, trace := st.trace ++ [.raw b] }

/-- The whole stream at once. -/
def reader {A : Type} (P : App A) (delim : Bytes) (st : St A) (stream : Bytes) : St A := stream.foldl (byte P delim) st

end Verif.Liner
