import Verif.Model.StreamIo

/-!
# When streams agree

Relations between the states of streams over the same bytes, and the uses of a stream for which they stay related.
-/

namespace Verif.Io

/-- A file and a memory stream with the same bytes at the same position. The indicator is only set at the end. -/
structure FileAt (f : CFile) (s : Rs) : Prop where
  data : f.data = s.data
  pos : f.pos = s.pos
  inside : s.pos ≤ s.data.length
  flag : f.eof = true → s.pos = s.data.length

/-- A C++ stream and a memory stream: at the same position, or the C++ stream has failed and the memory stream is at the end. -/
structure StreamAt (f : CStream) (s : Rs) : Prop where
  data : f.data = s.data
  inside : s.pos ≤ s.data.length
  good : f.fail = false → f.pos = s.pos ∧ f.eof = false
  failed : f.fail = true → s.pos = s.data.length

/-- Programs that only read. -/
def Prog.OnlyReads {α} : Prog α → Prop
  | .ret _ => True
  | .fail _ => True
  | .read _ k => ∀ bs, (k bs).OnlyReads
  | .seek _ _ _ => False
  | .tell _ => False
  | .eof _ => False

/-- A position inside of the content or at its end. -/
def Inside (data : Bytes) (t : Int) : Prop := 0 ≤ t ∧ t ≤ data.length

/-- A run on a file that seeks inside of the file, and asks for its end either in front of it or after it was not possible to read
as much as asked for. -/
def Prog.FineFile {α} : Prog α → CFile → Prop
  | .ret _, _ => True
  | .fail _, _ => True
  | .read n k, f => (k (file.read n f).1).FineFile (file.read n f).2
  | .seek off w k, f => Inside f.data (Rd.seekTarget f.pos f.data.length off w) ∧ k.FineFile (file.seek off w f)
  | .tell k, f => (k f.pos).FineFile f
  | .eof k, f => (f.pos < f.data.length ∨ f.eof = true) ∧ (k f.eof).FineFile f

/-- A run on a C++ stream that is never used to seek or for its position after it was not possible to read as much as asked for;
otherwise as with files. -/
def Prog.FineStream {α} : Prog α → CStream → Prop
  | .ret _, _ => True
  | .fail _, _ => True
  | .read n k, f => (k (stream.read n f).1).FineStream (stream.read n f).2
  | .seek off w k, f =>
    f.fail = false ∧ Inside f.data (Rd.seekTarget f.pos f.data.length off w) ∧ k.FineStream (stream.seek off w f)
  | .tell k, f => f.fail = false ∧ (k f.pos).FineStream f
  | .eof k, f => (f.fail = false ∧ f.pos < f.data.length ∨ f.eof = true) ∧ (k f.eof).FineStream f

/-- All values a program can give satisfy `P`. -/
def Prog.Gives {α} (P : α → Prop) : Prog α → Prop
  | .ret a => P a
  | .fail _ => True
  | .read _ k => ∀ bs, (k bs).Gives P
  | .seek _ _ k => k.Gives P
  | .tell k => ∀ n, (k n).Gives P
  | .eof k => ∀ b, (k b).Gives P

/-- A run of a writer that only seeks inside of what is there. -/
def WProg.Fine {α} : WProg α → Ws → Prop
  | .ret _, _ => True
  | .write bs k, w => k.Fine (w.write bs)
  | .seek off wh k, w => Inside w.data (Rd.seekTarget w.pos w.data.length off wh) ∧ k.Fine (w.seek off wh)
  | .tell k, w => (k w.pos).Fine w

/-- The same result, and related states. -/
def Agree {α σ τ} (R : σ → τ → Prop) : Except Fail (α × σ) → Except Fail (α × τ) → Prop
  | .ok (a, s), .ok (b, t) => a = b ∧ R s t
  | .error e, .error e' => e = e'
  | _, _ => False

end Verif.Io
