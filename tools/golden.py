#!/usr/bin/env python3
"""Compare the model with the expected output of the project's own file tests.

For every file in /repo/test/highlight with a neighbour FILE.html, this evaluates the model of the
highlighter on FILE and compares the tokens with those in FILE.html.  It tests that the model follows the
code; no theorem depends on it.

Usage: tools/golden.py [LANG...]     (build the modules Verif.Lang.* first)
"""
import html, os, re, subprocess, sys, tempfile

ROOT = '/repo/test/highlight'
LEAN = os.path.join(os.path.dirname(os.path.dirname(os.path.abspath(__file__))), 'lean')
# extension -> (module, Lean expression)
LANGS = {
    'sh': ('Bash', 'Bash.highlight'), 'c': ('Cpp', 'Cpp.highlightFor false'),
    'cow': ('Cowel', 'Cowel.highlight'), 'cpp': ('Cpp', 'Cpp.highlight'), 'css': ('Css', 'Css.highlight'),
    'diff': ('Diff', 'Diff.highlight'), 'ebnf': ('Ebnf', 'Ebnf.highlight'),
    'java': ('Java', 'Java.highlight'), 'js': ('Js', 'Js.highlight .javascript'),
    'jsx': ('Js', 'Js.highlight .javascript'), 'ts': ('Js', 'Js.highlight .typescript'),
    'json': ('Json', 'Json.highlight'), 'jsonc': ('Json', 'Json.highlightC'),
    'kt': ('Kotlin', 'Kotlin.highlight'), 'latex': ('Tex', 'Tex.highlight'), 'tex': ('Tex', 'Tex.highlight'),
    'll': ('Llvm', 'Llvm.highlight'), 'lua': ('Lua', 'Lua.highlight'),
    'md': ('Markdown', 'Markdown.highlight'), 'commonmark': ('Markdown', 'Markdown.highlight'),
    'asm': ('Nasm', 'Nasm.highlight'), 'py': ('Python', 'Python.highlight'),
    'rs': ('Rust', 'Rust.highlight'), 'xml': ('Xml', 'Xml.highlight'), 'mml': ('Xml', 'Xml.highlight'),
    'yaml': ('Yaml', 'Yaml.highlight'),
    'html': ('Html', 'Html.highlight Css.highlight (Js.highlight .javascript)'),
}


def expected(path):
    text = open(path, 'rb').read().decode('utf-8')
    pos, out, beg = 0, [], None
    for part in re.split(r'(<h- data-h=\w+>|</h->)', text):
        if part.startswith('<h- '):
            beg, ty = pos, part[len('<h- data-h='):-1]
        elif part == '</h->':
            out.append((beg, pos - beg, ty))
        else:
            pos += len(html.unescape(part).encode('utf-8'))
    return pos, out


def main():
    cases = []
    for d, _, files in sorted(os.walk(ROOT)):
        for f in sorted(files):
            ext = f.rsplit('.', 1)[-1]
            p = os.path.join(d, f)
            if ext in LANGS and os.path.exists(p + '.html') and (not sys.argv[1:] or os.path.basename(d) in sys.argv[1:]):
                cases.append((ext, p))
    mods = {'TypeStrings'} | {'Lang.' + LANGS[e][0] for e, _ in cases}
    if any(e == 'html' for e, _ in cases):
        mods |= {'Lang.Css', 'Lang.Js'}
    src = [f'import Verif.{m}' for m in sorted(mods)]
    src.append('''open Ulight
def go (hl : Highlight) (path : String) : IO Unit := do
  let b ← IO.FS.readBinFile path
  IO.println s!"FILE {path}"
  match hl true {} b.toList with
  | .ok (_, es) => match deliver false 4096 es with
    | .ok ts => for t in ts.flatten do
        IO.println s!"{t.beg} {t.len} {String.ofList ((shortString t.ty.val).map fun c => Char.ofNat c.toNat)}"
    | .error f => IO.println s!"FAULT {repr f}"
  | .error f => IO.println s!"FAULT {repr f}"''')
    for e, p in cases:
        src.append(f'#eval go (Ulight.{LANGS[e][1]}) "{p}"')
    with tempfile.NamedTemporaryFile('w', suffix='.lean', delete=False) as f:
        f.write('\n'.join(src) + '\n')
    r = subprocess.run(['lake', 'env', 'lean', f.name], cwd=LEAN, capture_output=True, text=True)
    got, cur = {}, None
    for line in r.stdout.splitlines():
        if line.startswith('FILE '):
            cur = got[line[5:]] = []
        elif cur is not None and line.strip():
            w = line.split()
            cur.append((int(w[0]), int(w[1]), w[2]) if len(w) == 3 and w[0].isdigit() else line)
    if r.returncode:
        print(r.stdout[-2000:], r.stderr[-2000:])
    bad = 0
    for e, p in cases:
        size, want = expected(p + '.html')
        have = got.get(p)
        if have != want or size != os.path.getsize(p):
            bad += 1
            diff = next(((a, b) for a, b in zip(want, have or []) if a != b), (len(want), len(have or [])))
            print('DIFFERS', p, 'expected/model:', diff)
    print(f'{len(cases) - bad} of {len(cases)} files agree')


main()
