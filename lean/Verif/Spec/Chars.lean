import Verif.Model.Basic
/-!
# Specification: white space and control characters

The Unicode properties White_Space and Cc (general category control), as lists of code points.
-/

namespace Prexel

/-- The 25 characters with the Unicode property White_Space: tab to carriage return, space, next line, the no-break, Ogham, typographic, line and paragraph
separating, narrow, mathematical and ideographic spaces. -/
def whiteSpaceCodes : List Nat :=
  [9, 10, 11, 12, 13, 32, 133, 160, 5760, 8192, 8193, 8194, 8195, 8196, 8197, 8198, 8199, 8200, 8201, 8202, 8232, 8233, 8239, 8287, 12288]

/-- The 65 control characters: the first 32, delete, and the 32 behind it. -/
def controlCodes : List Nat := List.range 32 ++ [127] ++ List.range' 128 32

def WhiteSpace (c : Char) : Prop := c.toNat ∈ whiteSpaceCodes

def Control (c : Char) : Prop := c.toNat ∈ controlCodes

/-- The ASCII letters, small and capital. -/
def smallLetters : List Char := ['a', 'b', 'c', 'd', 'e', 'f', 'g', 'h', 'i', 'j', 'k', 'l', 'm', 'n', 'o', 'p', 'q', 'r', 's', 't', 'u', 'v', 'w', 'x', 'y', 'z']
def capitalLetters : List Char := ['A', 'B', 'C', 'D', 'E', 'F', 'G', 'H', 'I', 'J', 'K', 'L', 'M', 'N', 'O', 'P', 'Q', 'R', 'S', 'T', 'U', 'V', 'W', 'X', 'Y', 'Z']
def digitChars : List Char := ['0', '1', '2', '3', '4', '5', '6', '7', '8', '9']
/-- The 32 ASCII punctuation characters. -/
def punctuation : List Char :=
  ['!', '"', '#', '$', '%', '&', '\'', '(', ')', '*', '+', ',', '-', '.', '/', ':', ';', '<', '=', '>', '?', '@', '[', '\\', ']', '^', '_', '`', '{', '|', '}', '~']

end Prexel
