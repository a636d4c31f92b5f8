#!/usr/bin/env python3
"""Which definitions of the model does no statement of a property theorem depend on?  Run after `lake build`; writes only to a temporary
directory.  Statements are unfolded through definitions and types, not through proofs."""
import json, os, re, subprocess, tempfile
ROOT = os.path.dirname(os.path.dirname(os.path.abspath(__file__)))
LEAN = os.path.join(ROOT, 'lean')
MODEL = ("Text Lexical Floats Bytes Renderer Value Methods Cond Exprs Patterns Clauses Shortcuts Literals Builder Interfaces Slices "
         "CaseMem BuilderMem BuilderLive NilArgs ZeroValues Leftovers ResultAccept").split()
SCRIPT = r'''import Verif
open Lean
partial def reach (env : Environment) : List Name → NameSet → NameSet
  | [], seen => seen
  | n :: r, seen =>
    if seen.contains n then reach env r seen
    else
      let seen := seen.insert n
      if !(`Verif).isPrefixOf n then reach env r seen else
      match env.find? n with
      | none => reach env r seen
      | some ci =>
        let vs := match ci with
          | .defnInfo d => d.value.getUsedConstants.toList
          | .inductInfo d => d.ctors
          | _ => []
        reach env (ci.type.getUsedConstants.toList ++ vs ++ r) seen
run_meta do
  let env ← getEnv
  let txt ← IO.FS.readFile "NAMES"
  let names := (txt.splitOn "\n").filter (· ≠ "") |>.map String.toName
  let start := names.flatMap fun n => match env.find? n with | some ci => ci.type.getUsedConstants.toList | none => []
  let seen := reach env start {}
  for (n, ci) in env.constants.toList do
    if let .defnInfo _ := ci then
      if (`Verif).isPrefixOf n && !n.isInternal && !n.isInternalDetail && !seen.contains n then
        if let some i := env.getModuleIdxFor? n then IO.println s!"{env.header.moduleNames[i.toNat]!} {n}"
'''
with tempfile.TemporaryDirectory() as tmp:
    names = os.path.join(tmp, 'names.txt')
    with open(names, 'w') as f:
        for c in json.load(open(os.path.join(ROOT, 'MANIFEST.json')))['claims']:
            f.write('\n'.join(c['theorems']) + '\n')
    script = os.path.join(tmp, 'Reach.lean')
    open(script, 'w').write(SCRIPT.replace('NAMES', names))
    out = subprocess.run(['lake', 'env', 'lean', script], cwd=LEAN, capture_output=True, text=True).stdout
n = 0
for line in sorted(out.split('\n')):
    p = line.split()
    if len(p) != 2 or p[0].split('.')[-1] not in MODEL:
        continue
    src = open(os.path.join(LEAN, 'Verif', p[0].split('.')[-1] + '.lean')).read()
    short = p[1].split('.')[-1]
    if re.search(r'^(?:@\[.*\] )?(?:private |protected )?(?:def|abbrev)\s+(?:\S*\.)?' + re.escape(short) + r'(?![\w\'])', src, re.M):
        print(*p)
        n += 1
print(n, 'definitions')
