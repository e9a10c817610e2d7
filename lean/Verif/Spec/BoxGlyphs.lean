import Verif.Model.Keyline

/-! What the box drawing glyphs look like, from their Unicode names. -/

namespace Textual.Keyline

/-- The arms (top, right, bottom, left) of the glyphs U+2500–U+257F made of straight solid lines;
1 light, 2 heavy, 3 double. Derived from the Unicode character names, independently of the code. -/
def unicodeArms : List (Char × Quad) := [
  ('─', ⟨0, 1, 0, 1⟩),
  ('━', ⟨0, 2, 0, 2⟩),
  ('│', ⟨1, 0, 1, 0⟩),
  ('┃', ⟨2, 0, 2, 0⟩),
  ('┌', ⟨0, 1, 1, 0⟩),
  ('┍', ⟨0, 2, 1, 0⟩),
  ('┎', ⟨0, 1, 2, 0⟩),
  ('┏', ⟨0, 2, 2, 0⟩),
  ('┐', ⟨0, 0, 1, 1⟩),
  ('┑', ⟨0, 0, 1, 2⟩),
  ('┒', ⟨0, 0, 2, 1⟩),
  ('┓', ⟨0, 0, 2, 2⟩),
  ('└', ⟨1, 1, 0, 0⟩),
  ('┕', ⟨1, 2, 0, 0⟩),
  ('┖', ⟨2, 1, 0, 0⟩),
  ('┗', ⟨2, 2, 0, 0⟩),
  ('┘', ⟨1, 0, 0, 1⟩),
  ('┙', ⟨1, 0, 0, 2⟩),
  ('┚', ⟨2, 0, 0, 1⟩),
  ('┛', ⟨2, 0, 0, 2⟩),
  ('├', ⟨1, 1, 1, 0⟩),
  ('┝', ⟨1, 2, 1, 0⟩),
  ('┞', ⟨2, 1, 1, 0⟩),
  ('┟', ⟨1, 1, 2, 0⟩),
  ('┠', ⟨2, 1, 2, 0⟩),
  ('┡', ⟨2, 2, 1, 0⟩),
  ('┢', ⟨1, 2, 2, 0⟩),
  ('┣', ⟨2, 2, 2, 0⟩),
  ('┤', ⟨1, 0, 1, 1⟩),
  ('┥', ⟨1, 0, 1, 2⟩),
  ('┦', ⟨2, 0, 1, 1⟩),
  ('┧', ⟨1, 0, 2, 1⟩),
  ('┨', ⟨2, 0, 2, 1⟩),
  ('┩', ⟨2, 0, 1, 2⟩),
  ('┪', ⟨1, 0, 2, 2⟩),
  ('┫', ⟨2, 0, 2, 2⟩),
  ('┬', ⟨0, 1, 1, 1⟩),
  ('┭', ⟨0, 1, 1, 2⟩),
  ('┮', ⟨0, 2, 1, 1⟩),
  ('┯', ⟨0, 2, 1, 2⟩),
  ('┰', ⟨0, 1, 2, 1⟩),
  ('┱', ⟨0, 1, 2, 2⟩),
  ('┲', ⟨0, 2, 2, 1⟩),
  ('┳', ⟨0, 2, 2, 2⟩),
  ('┴', ⟨1, 1, 0, 1⟩),
  ('┵', ⟨1, 1, 0, 2⟩),
  ('┶', ⟨1, 2, 0, 1⟩),
  ('┷', ⟨1, 2, 0, 2⟩),
  ('┸', ⟨2, 1, 0, 1⟩),
  ('┹', ⟨2, 1, 0, 2⟩),
  ('┺', ⟨2, 2, 0, 1⟩),
  ('┻', ⟨2, 2, 0, 2⟩),
  ('┼', ⟨1, 1, 1, 1⟩),
  ('┽', ⟨1, 1, 1, 2⟩),
  ('┾', ⟨1, 2, 1, 1⟩),
  ('┿', ⟨1, 2, 1, 2⟩),
  ('╀', ⟨2, 1, 1, 1⟩),
  ('╁', ⟨1, 1, 2, 1⟩),
  ('╂', ⟨2, 1, 2, 1⟩),
  ('╃', ⟨2, 1, 1, 2⟩),
  ('╄', ⟨2, 2, 1, 1⟩),
  ('╅', ⟨1, 1, 2, 2⟩),
  ('╆', ⟨1, 2, 2, 1⟩),
  ('╇', ⟨2, 2, 1, 2⟩),
  ('╈', ⟨1, 2, 2, 2⟩),
  ('╉', ⟨2, 1, 2, 2⟩),
  ('╊', ⟨2, 2, 2, 1⟩),
  ('╋', ⟨2, 2, 2, 2⟩),
  ('═', ⟨0, 3, 0, 3⟩),
  ('║', ⟨3, 0, 3, 0⟩),
  ('╒', ⟨0, 3, 1, 0⟩),
  ('╓', ⟨0, 1, 3, 0⟩),
  ('╔', ⟨0, 3, 3, 0⟩),
  ('╕', ⟨0, 0, 1, 3⟩),
  ('╖', ⟨0, 0, 3, 1⟩),
  ('╗', ⟨0, 0, 3, 3⟩),
  ('╘', ⟨1, 3, 0, 0⟩),
  ('╙', ⟨3, 1, 0, 0⟩),
  ('╚', ⟨3, 3, 0, 0⟩),
  ('╛', ⟨1, 0, 0, 3⟩),
  ('╜', ⟨3, 0, 0, 1⟩),
  ('╝', ⟨3, 0, 0, 3⟩),
  ('╞', ⟨1, 3, 1, 0⟩),
  ('╟', ⟨3, 1, 3, 0⟩),
  ('╠', ⟨3, 3, 3, 0⟩),
  ('╡', ⟨1, 0, 1, 3⟩),
  ('╢', ⟨3, 0, 3, 1⟩),
  ('╣', ⟨3, 0, 3, 3⟩),
  ('╤', ⟨0, 3, 1, 3⟩),
  ('╥', ⟨0, 1, 3, 1⟩),
  ('╦', ⟨0, 3, 3, 3⟩),
  ('╧', ⟨1, 3, 0, 3⟩),
  ('╨', ⟨3, 1, 0, 1⟩),
  ('╩', ⟨3, 3, 0, 3⟩),
  ('╪', ⟨1, 3, 1, 3⟩),
  ('╫', ⟨3, 1, 3, 1⟩),
  ('╬', ⟨3, 3, 3, 3⟩),
  ('╴', ⟨0, 0, 0, 1⟩),
  ('╵', ⟨1, 0, 0, 0⟩),
  ('╶', ⟨0, 1, 0, 0⟩),
  ('╷', ⟨0, 0, 1, 0⟩),
  ('╸', ⟨0, 0, 0, 2⟩),
  ('╹', ⟨2, 0, 0, 0⟩),
  ('╺', ⟨0, 2, 0, 0⟩),
  ('╻', ⟨0, 0, 2, 0⟩),
  ('╼', ⟨0, 2, 0, 1⟩),
  ('╽', ⟨1, 0, 2, 0⟩),
  ('╾', ⟨0, 1, 0, 2⟩),
  ('╿', ⟨2, 0, 1, 0⟩)]

/-- The arms of a glyph. -/
def glyphArms (c : Char) : Option Quad := unicodeArms.lookup c

end Textual.Keyline
