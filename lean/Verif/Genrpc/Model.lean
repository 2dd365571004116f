import Verif.AssocMap
import Verif.Decimal
/-!
# Model of the command `genrpc`

Source: `/repo/tools/genrpc/main.cpp`, `/repo/tools/genrpc/genrpc_template.cpp`,
`/repo/tools/genrpc/genrpc_extract_names.cpp`, `/repo/tools/genrpc/gen_null.h`, and of
`/repo/tools/genrpc/gen_php.h` and `/repo/tools/genrpc/gen_hs.h` the names of the files that they write. What they write is
modelled in `Verif/GenPhp` and `Verif/GenHs` and is a parameter here.

The compiler, the names that `mkstemp` chooses and the places where files can be written are parameters. A shell command with characters that
have a meaning for the shell is an outcome of its own (`Fault.shell`). The arguments have no zero bytes, as they are C strings. Only the files
matter, and they are known by the name that the command uses: two names stand for two files.
-/
namespace Verif.Genrpc

abbrev Str := List UInt8
abbrev Files := List (Str × Str)

/-! ### Texts -/

/-- `string::find` for a text that is not empty: where it begins for the first time. -/
def find (pat : Str) : Str → Option Nat
  | [] => none
  | c :: s => if pat.isPrefixOf (c :: s) then some 0 else (find pat s).map (· + 1)

/-- `replace` (`/repo/tools/genrpc/main.cpp:19-25`): only the first occurrence. -/
def replace (s pat aft : Str) : Str :=
  match find pat s with
  | none => s
  | some p => s.take p ++ aft ++ s.drop (p + pat.length)

/-- `isspace` in the "C" locale. -/
def isSpace (c : UInt8) : Bool := c == 32 || (9 ≤ c && c ≤ 13)

/-- What separates words for the shell. -/
def isBlank (c : UInt8) : Bool := c == 32 || c == 9

/-- The words of a text; `cur` is the word that has begun. -/
def wordsFrom (sep : UInt8 → Bool) : Str → Str → List Str
  | cur, [] => if cur = [] then [] else [cur]
  | cur, c :: s => if sep c then (if cur = [] then wordsFrom sep [] s else cur :: wordsFrom sep [] s) else wordsFrom sep (cur ++ [c]) s

/-- All words of a text: `for (string name; iss>>name; )` (`/repo/tools/genrpc/main.cpp:109-112`), and the splitting of the shell. -/
def words (sep : UInt8 → Bool) (s : Str) : List Str := wordsFrom sep [] s

/-- Line feed and the characters ``! " # $ & ' ( ) * ; < > ? [ \\ ` { | } ~``, which the shell does not take as they are. -/
def special : List UInt8 := [10, 33, 34, 35, 36, 38, 39, 40, 41, 42, 59, 60, 62, 63, 91, 92, 96, 123, 124, 125, 126]

/-! ### What happens -/

/-- What is not defined, or left to the shell. -/
inductive Fault
  /-- A stream that could not be made is written to (`/repo/tools/genrpc/main.cpp:32-34`). -/
  | nullStream
  /-- The shell interprets a part of the command. -/
  | shell
  /-- The generator takes the first of no interfaces (`/repo/tools/genrpc/gen_hs.h:27`). -/
  | noInterface
deriving DecidableEq

/-- What is printed. -/
inductive Msg
  | usage
  | noLanguage
  | extractFailed
  | generateFailed
  | notSupported (lang : Str)
  | notImplemented
deriving DecidableEq

/-- What a program that was built does with the files: the files afterwards, what it writes to its standard output and to its standard error,
and whether it ends with status 0. -/
abbrev Exe := Files → Except Fault (Files × Str × List Msg × Bool)

/-- What the command meets. -/
structure Env where
  /-- The name that `mkstemp` makes from a beginning (without the six `X`). -/
  fresh : Str → Files → Option Str
  /-- The compiler with its arguments: the files afterwards, and the program if there is one. -/
  gxx : List Str → Files → Files × Option Exe
  /-- The installed files `genrpc_template.cpp` and `genrpc_extract_names.cpp`. -/
  tmpl : Str
  extr : Str

/-! ### `main.cpp` -/

/-- One argument (`/repo/tools/genrpc/main.cpp:69-76`): the name of the signature and the language. -/
def argument (st : Str × Str) (a : Str) : Str × Str := if [45, 45].isPrefixOf a then (st.1, a.drop 2) else (a, st.2)

/-- The arguments (`/repo/tools/genrpc/main.cpp:67-76`). -/
def parse (args : List Str) : Str × Str := args.foldl argument (args.headD [], [])

/-- `compiler_options` (`/repo/tools/genrpc/main.cpp:83-85`): all arguments but the first and the last. -/
def options (args : List Str) : Str := (args.drop 1).dropLast.flatMap (fun a => 32 :: a)

/-- `"genrpctmp"` and `"genrpcexe"` (`/repo/tools/genrpc/main.cpp:29-30`). -/
def tmpPrefix : Str := [103, 101, 110, 114, 112, 99, 116, 109, 112]
def exePrefix : Str := [103, 101, 110, 114, 112, 99, 101, 120, 101]

/-- The command (`/repo/tools/genrpc/main.cpp:39`). -/
def command (t opts g : Str) : Str :=
  [103, 43, 43, 32, 45, 120, 99, 43, 43, 32] ++ t ++ 32 :: opts ++ [32, 45, 108, 112, 102, 105, 99, 111, 109, 109, 111, 110, 32, 45, 111, 32] ++ g

/-- What the shell makes of a command. -/
def shell (cmd : Str) : Except Fault (List Str) := if cmd.any (special.contains ·) then .error .shell else .ok (words isBlank cmd)

/-- `eval_cpp` (`/repo/tools/genrpc/main.cpp:27-58`): the files afterwards, the messages of the program, and its output, or nothing if an
exception is thrown. If the second temporary file cannot be made its name stays as it was. That `popen` fails is not modelled. -/
def evalCpp (E : Env) (src opts : Str) (fs : Files) : Except Fault (Files × List Msg × Option Str) :=
  match E.fresh tmpPrefix fs with
  | none => .error .nullStream
  | some t =>
    let fs := AssocMap.upsert fs t src
    let (g, fs) := match E.fresh exePrefix fs with
      | none => (exePrefix ++ List.replicate 6 88, fs)
      | some g => (g, AssocMap.upsert fs g [])
    match shell (command t opts g) with
    | .error f => .error f
    | .ok ws =>
      match E.gxx ws fs with
      | (fs, none) => .ok (AssocMap.erase fs t, [], none)
      | (fs, some exe) =>
        match exe (AssocMap.erase fs t) with
        | .error f => .error f
        | .ok (fs, out, msgs, good) => .ok (AssocMap.erase fs g, msgs, if good then some out else none)

/-- `<<<SIGFILE>>>`, `<<<BASENAME>>>`, `<<<LANG>>>` and `<<<ADDREFLECTS>>>`. -/
def sigMark : Str := [60, 60, 60, 83, 73, 71, 70, 73, 76, 69, 62, 62, 62]
def baseMark : Str := [60, 60, 60, 66, 65, 83, 69, 78, 65, 77, 69, 62, 62, 62]
def langMark : Str := [60, 60, 60, 76, 65, 78, 71, 62, 62, 62]
def addMark : Str := [60, 60, 60, 65, 68, 68, 82, 69, 70, 76, 69, 67, 84, 83, 62, 62, 62]

/-- The text for one interface (`/repo/tools/genrpc/main.cpp:126-127`). -/
def reflect (name : Str) (i : Nat) : Str :=
  name ++ [95, 114, 101, 102, 108, 101, 99, 116, 32, 114, 101, 102] ++ Decimal.digits i ++ [59, 10] ++
    [114, 101, 102, 115, 46, 112, 117, 115, 104, 95, 98, 97, 99, 107, 40, 38, 114, 101, 102] ++ Decimal.digits i ++ [41, 59, 10]

/-- The text for all interfaces (`/repo/tools/genrpc/main.cpp:124-128`), beginning with number `i`. -/
def reflects : List Str → Nat → Str
  | [], _ => []
  | n :: ns, i => reflect n i ++ reflects ns (i + 1)

/-- The source of the generator (`/repo/tools/genrpc/main.cpp:120-129`). -/
def fill (tmpl sig lang : Str) (names : List Str) : Str :=
  replace (replace (replace (replace tmpl sigMark sig) baseMark sig) langMark lang) addMark (reflects names 0)

/-- What the command leaves behind: its status, the messages, the files. -/
structure Result where
  status : Nat
  msgs : List Msg
  files : Files

/-- `main` (`/repo/tools/genrpc/main.cpp:60-140`) with the arguments behind the name of the program. -/
def run (E : Env) (args : List Str) (fs : Files) : Except Fault Result :=
  if args.length < 2 then .ok ⟨0, [.usage], fs⟩
  else
    let (sig, lang) := parse args
    if lang = [] then .ok ⟨1, [.noLanguage], fs⟩
    else
      let opts := options args
      match evalCpp E (replace E.extr sigMark sig) opts fs with
      | .error f => .error f
      | .ok (fs, msgs, none) => .ok ⟨0, msgs ++ [.extractFailed], fs⟩
      | .ok (fs, msgs, some out) =>
        match evalCpp E (fill E.tmpl sig lang (words isSpace out)) opts fs with
        | .error f => .error f
        | .ok (fs, msgs', none) => .ok ⟨0, msgs ++ msgs' ++ [.generateFailed], fs⟩
        | .ok (fs, msgs', some _) => .ok ⟨0, msgs ++ msgs', fs⟩

/-! ### The programs that are built -/

/-- The program made of `genrpc_extract_names.cpp` (`/repo/tools/genrpc/genrpc_extract_names.cpp:10-16`, `36-39`): a line for each interface. -/
def extractor (names : List Str) : Exe := fun fs => .ok (fs, names.flatMap (fun n => n ++ [10]), [], true)

/-- `header_sufs` (`/repo/tools/genrpc/genrpc_template.cpp:52-57`). -/
def headerSufs : List Str := [[46, 104, 112, 112], [46, 104, 120, 120], [46, 104]]

/-- The name of the output without its suffix (`/repo/tools/genrpc/genrpc_template.cpp:59-72`): the first of the suffixes that is found,
wherever that is, is removed once. -/
def outnameFrom (base : Str) : List Str → Str
  | [] => base
  | suf :: sufs =>
    match find suf base with
    | some p => base.take p ++ base.drop (p + suf.length)
    | none => outnameFrom base sufs

def outname (base : Str) : Str := outnameFrom base headerSufs

/-- `toupper` in the "C" locale. -/
def toupper (c : UInt8) : UInt8 := if 97 ≤ c ∧ c ≤ 122 then c - 32 else c

/-- The first character as a capital (`/repo/tools/genrpc/gen_hs.h:33-34`). -/
def capital : Str → Str
  | [] => []
  | c :: s => toupper c :: s

/-- The kinds of generators. -/
inductive Kind
  | php
  | haskell
  | null
deriving DecidableEq

/-- `infos` (`/repo/tools/genrpc/genrpc_template.cpp:30-38`): php, haskell, ocaml, java, ruby, python, perl. -/
def infos : List (Str × Kind) :=
  [([112, 104, 112], .php), ([104, 97, 115, 107, 101, 108, 108], .haskell), ([111, 99, 97, 109, 108], .null),
   ([106, 97, 118, 97], .null), ([114, 117, 98, 121], .null), ([112, 121, 116, 104, 111, 110], .null),
   ([112, 101, 114, 108], .null)]

/-- What the generators would write, and where a file can be written: `ofstream` does not report that it cannot. -/
structure Texts where
  php : Str
  hs : Str
  canWrite : Str → Bool

/-- A file that is written, or not. -/
def write (T : Texts) (fs : Files) (name text : Str) : Files := if T.canWrite name then AssocMap.upsert fs name text else fs

/-- The program made of `genrpc_template.cpp` (`/repo/tools/genrpc/genrpc_template.cpp:40-90`) for interfaces with these names; the files are
named in `/repo/tools/genrpc/gen_php.h:38` and `/repo/tools/genrpc/gen_hs.h:33-39`, the exception comes from
`/repo/tools/genrpc/gen_null.h:13-15`, and for Haskell the first interface is taken (`/repo/tools/genrpc/gen_hs.h:26-29`). -/
def generator (T : Texts) (lang base : Str) (names : List Str) : Exe := fun fs =>
  match infos.find? (fun e => e.1 = lang) with
  | none => .ok (fs, [], [.notSupported lang], true)
  | some (_, .php) => .ok (write T fs (outname base ++ [46, 112, 104, 112]) T.php, [], [], true)
  | some (_, .haskell) =>
    if names = [] then .error .noInterface
    else .ok (write T fs (capital (outname base) ++ [46, 104, 115]) T.hs, [], [], true)
  | some (_, .null) => .ok (AssocMap.erase fs (outname base), [], [.notImplemented], true)

end Verif.Genrpc
