"""Regenerates the list of findings in DESIGN.md from the comments of the theorems named *violated*."""
import glob
import re

HERE = '/verif/'


def findings():
    out = []
    for f in sorted(glob.glob(HERE + 'lean/Verif/Props/*.lean')):
        s = open(f).read()
        pat = r'/--((?:(?!-/).)*?)-/\s*(?:set_option[^\n]*\n)?\s*theorem (C\d\d+_\w*violated\w*)'
        for m in re.finditer(pat, s, re.S):
            out.append((m.group(2), ' '.join(m.group(1).split())))
    return sorted(out)


def main():
    s = open(HERE + 'DESIGN.md').read()
    a = s.index('<!-- findings:begin -->') + len('<!-- findings:begin -->')
    b = s.index('<!-- findings:end -->')
    body = '\n'.join(f'* `{n}` – {t}' for n, t in findings())
    open(HERE + 'DESIGN.md', 'w').write(s[:a] + '\n' + body + '\n' + s[b:])


main()
