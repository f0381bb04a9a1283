/-!
# The command-line utility: the files with maps

Model of the reading of the time map, the frequency map and the pitch map in `main/main.cpp`.  A file is its characters; files that cannot be opened or read are left out, and so are messages.
-/
namespace Verif.CliMaps

/-- `std::getline` until the end of the file (main.cpp:463-464, 512-513): what is between the line ends. -/
def lines : List Char → List (List Char)
  | [] => [[]]
  | c :: cs =>
    if c = '\n' then [] :: lines cs
    else match lines cs with
      | l :: ls => (c :: l) :: ls
      | [] => [[c]]

/-- Whether `atoi` skips it (`isspace`). -/
def isSpace (c : Char) : Bool := c == ' ' || c == '\t' || c == '\n' || c == '\x0b' || c == '\x0c' || c == '\r'

/-- The number that the digits at the beginning make. -/
def number (l : List Char) : Nat := (l.takeWhile Char.isDigit).foldl (fun n c => 10 * n + (c.toNat - 48)) 0

/-- A number with or without a sign. -/
def signed : List Char → Int
  | '-' :: l => -(number l : Int)
  | '+' :: l => number l
  | l => number l

/-- `atoi`: 0 if there is no number.  `none`: it does not fit in an `int`, and the behaviour is undefined. -/
def atoi (l : List Char) : Option Int :=
  let n := signed (l.dropWhile isSpace)
  if -(2 ^ 31 : Int) ≤ n ∧ n < 2 ^ 31 then some n else none

/-- An `int` converted to a `size_t` of 64 bits (main.cpp:478, 480, 528). -/
def toSize (n : Int) : Nat := (n % (2 ^ 64 : Int)).toNat

/-- Assignment to an entry of a `std::map` (main.cpp:481, 534), which is in order. -/
def put {β : Type} (k : Nat) (v : β) : List (Nat × β) → List (Nat × β)
  | [] => [(k, v)]
  | (k', v') :: m => if k < k' then (k, v) :: (k', v') :: m else if k = k' then (k, v) :: m else (k', v') :: put k v m

/-- What reading comes to. -/
inductive Result (β : Type) where
  | ok (map : List (Nat × β))
  /-- The utility ends with an error (main.cpp:473-476, 522-525) and tells of this line. -/
  | malformed (lineno : Nat)
deriving DecidableEq

/-- main.cpp:462-486, 511-539: the loop over the lines, for what `value` makes of the second column.  `none`: undefined behaviour. -/
def read {β : Type} (value : List Char → Option β) : (lineno : Nat) → List (Nat × β) → List (List Char) → Option (Result β)
  | _, m, [] => some (.ok m)
  | lineno, m, line :: rest =>
    let line := line.dropWhile (· == ' ')
    if line = [] then read value (lineno + 1) m rest
    else if ' ' ∈ line then do
      let source ← atoi (line.takeWhile (· != ' '))
      let v ← value ((line.dropWhile (· != ' ')).dropWhile (· == ' '))
      read value (lineno + 1) (put (toSize source) v m) rest
    else some (.malformed lineno)

/-- main.cpp:453-492: the time map. -/
def timeMap (file : List Char) : Option (Result Nat) := read (fun l => (atoi l).map toSize) 0 [] (lines file)

/-- main.cpp:494-543: the frequency map, or the pitch map with `convert` for `pow(2.0, freq / 12.0)`.  `atof` is a parameter. -/
def freqMap {K : Type} (atof : List Char → K) (convert : K → K) (file : List Char) : Option (Result K) := read (fun l => some (convert (atof l))) 0 [] (lines file)

end Verif.CliMaps
