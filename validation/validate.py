"""Runs the executable model on the test files of the repository and compares with the expected outputs.

Usage: python3 validate.py [/repo] [/verif/lean]   (after `lake build`)

The parser is `apexparse.py`, a small stand-in for tree-sitter-sfapex.  The runner below reads the trees it writes, runs
`Afmt.formatTree` with the configuration of the tests (width 80, indentation 2), and evaluates the hypotheses of the
main theorems.  This is a test of the model, not part of any proof.
"""
import glob, os, subprocess, sys, tempfile
from apexparse import parse, dump, PErr

RUNNER = r'''
import Verif.PropsLevels
import Verif.PropsIdem
import Verif.PropsBlanks
import Verif.PropsGap
open Afmt Gram Trail

structure Raw where
  kind : String
  named : Bool
  extra : Bool
  field : Option String
  pos : List Nat
  n : Nat
  text : Str
  deriving Inhabited

def unesc : List Char → List Char
  | '\\' :: 'n' :: r => '\n' :: unesc r
  | '\\' :: 't' :: r => '\t' :: unesc r
  | '\\' :: 'r' :: r => '\r' :: unesc r
  | '\\' :: '\\' :: r => '\\' :: unesc r
  | c :: r => c :: unesc r
  | [] => []

def raw (s : String) : Raw :=
  match s.splitOn "\t" with
  | [k, n, e, f, a, b, c, d, m, t] =>
    ⟨k, n == "1", e == "1", if f == "-" then none else some f, [a, b, c, d].map (·.toNat!), m.toNat!, unesc t.toList⟩
  | _ => panic! "bad line"

instance : Inhabited Node := ⟨⟨0, "", false, false, false, none, 0, 0, 0, 0, [], []⟩⟩
mutual
partial def tree (rs : Array Raw) (i : Nat) : Node × Nat :=
  let r := rs[i]!
  let (cs, j) := kids rs (i + 1) r.n []
  (⟨i + 1, r.kind, r.named, r.extra, false, r.field, r.pos[0]!, r.pos[1]!, r.pos[2]!, r.pos[3]!, r.text, cs⟩, j)
partial def kids (rs : Array Raw) (i : Nat) (n : Nat) (acc : List Node) : List Node × Nat :=
  if n == 0 then (acc.reverse, i) else
    let (t, j) := tree rs i
    kids rs j (n - 1) (t :: acc)
end

def main (args : List String) : IO UInt32 := do
  for f in args do
    let s ← IO.FS.readFile f
    let (t, _) := tree (((s.splitOn "\n").filter (· ≠ "")).map raw).toArray 0
    let c := conforms t
    let p := plain t
    let s := c && settled t
    let rows := updates t && calls t
    let ks := t.children
    let facts := [closedB t, c, c && p, s, s && neats ks,
      s && rows && primsBy tightText (fun l => !l.isEmpty) "parser_output" none ks,
      s && rows && primsBy calmText (fun l => !l.isEmpty && !pair l) "parser_output" none ks,
      s && rows && primsBy (fun s => tightText s && !lead s) (fun l => !l.isEmpty) "parser_output" none ks && regulars t,
      c && p && updates t && Gap.apart true t, c && p && updates t && Gap.apart false t]
    IO.FS.writeFile (f ++ ".facts") (" ".intercalate (facts.map (fun b => if b then "1" else "0")))
    match formatTree true 2000 ⟨80, 2⟩ t with
    | .ok o => IO.FS.writeFile (f ++ ".out") (String.ofList o)
    | .error e => IO.FS.writeFile (f ++ ".out") s!"ERROR {repr e}"
  return 0
'''
NAMES = ['tokens and comments are leaves (Parsed)', 'follows the grammar (C43 C49 C54 C56 C57)', 'and has no comments',
         'or has comments between members only', 'and C51 C52 apply', 'and C55 applies', 'and C58 applies', 'and C59 applies',
         'has no comments and C61 applies (tight = allowed)', 'has no comments and C61 applies (no tight =)']


def run(lean, work, items):
    """items: (name, source); returns name -> (output, facts)"""
    files = []
    for name, src in items:
        try:
            t = parse(src)
        except PErr as e:
            print('cannot parse', name, e)
            continue
        o = []
        dump(src, t, o)
        open(f'{work}/{name}', 'w', newline='').write('\n'.join(o) + '\n')
        files.append(name)
    open(f'{work}/Run.lean', 'w').write(RUNNER)
    subprocess.run(['lake', 'env', 'lean', '--run', f'{work}/Run.lean'] + [f'{work}/{n}' for n in files], cwd=lean, check=True)
    return {n: (open(f'{work}/{n}.out', newline='').read(), open(f'{work}/{n}.facts').read().split()) for n in files}


def main():
    repo = sys.argv[1] if len(sys.argv) > 1 else '/repo'
    lean = sys.argv[2] if len(sys.argv) > 2 else '/verif/lean'
    sys.setrecursionlimit(20000)
    read = lambda f: open(f, newline='').read()
    items, want = [], {}
    for d in ('static', 'prettier80', 'comments'):
        for f in sorted(glob.glob(f'{repo}/tests/{d}/*.in')):
            n = d + '_' + os.path.basename(f)[:-3]
            items.append((n, read(f)))
            want[n] = read(f[:-3] + '.cls')
    with tempfile.TemporaryDirectory() as work:
        got = run(lean, work, items)
        again = run(lean, work, [('again_' + n, s) for n, s in want.items()])
    bad = [n for n in got if got[n][0] != want[n]]
    print(f'{len(got) - len(bad)} of {len(want)} outputs are equal to the expected ones')
    for n in bad:
        print('  different:', n)
    for i, x in enumerate(NAMES):
        print(f'{sum(g[1][i] == "1" for g in got.values())} of {len(got)}: {x}')
    off = [n for n in got if got[n][1][1] != '1']
    print('outside of the grammar:', ', '.join(off))
    bad = [n for n in want if again['again_' + n][0] != want[n]]
    print(f'{len(want) - len(bad)} of {len(want)} expected outputs are left unchanged')
    for n in bad:
        print('  changed:', n)


if __name__ == "__main__":
    main()
