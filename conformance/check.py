#!/usr/bin/env python3
"""Runs the Lean model (not the crate) on the repository's test data and compares with what the repository says about it.

Needs /repo and a built /verif/lean (`lake build`). Evidence for the model's fidelity, not part of any proof.
 * the crate's unit tests, transcribed in lean/Verif/UnitTests.lean;
 * ccsds-lib/tests/fixtures/snpp_synchronized_cadus.dat, against the counts, packet list and checksum of its .txt note
   (found there with two other decoders), as it is and shifted by 1 to 7 bits behind some junk;
 * ccsds-lib/tests/fixtures/snpp_7cadus_2vcids.dat: seven frames of two virtual channels.
The other fixtures in the repository are git-lfs pointers, their data is not available here.
"""
import hashlib, re, subprocess, sys, tempfile, os

LEAN = os.path.join(os.path.dirname(os.path.abspath(__file__)), "..", "lean")
FIX = "/repo/ccsds-lib/tests/fixtures/"
bad = 0


def check(name, ok):
    global bad
    print("ok  " if ok else "FAIL", name)
    bad += not ok


def lean(*args):
    return subprocess.run(["lake", "env", "lean", "--run", "Verif/Conformance.lean", *args], cwd=LEAN, capture_output=True, text=True, check=True).stdout


def shift(data, n, junk):
    """junk, then the data n bits later, filled up with zero bits"""
    v = int.from_bytes(data, "big") << (8 - n)
    return junk + v.to_bytes(len(data) + 1, "big")


def cadus(data, length, interleave):
    with tempfile.TemporaryDirectory() as d:
        src, out = os.path.join(d, "in.dat"), os.path.join(d, "out.dat")
        open(src, "wb").write(data)
        text = lean("cadus", src, out, str(length), str(interleave))
        return text, open(out, "rb").read()


for line in lean("unit").splitlines():
    check("unit: " + line[5:], line.startswith("ok"))

note = open(FIX + "snpp_synchronized_cadus.txt").read()
md5 = re.search(r"^([0-9a-f]{32})$", note, re.M).group(1)
want = [tuple(map(int, m)) for m in re.findall(r"apid=(\d+) seqid=(\d+) stamp=.*? size=(\d+)", note)]
count, size = int(re.search(r"CADU Decoder\s+Count:\s+(\d+)", note).group(1)), int(re.search(r"VCID: 16.*?Bytes:\s+(\d+)", note).group(1))
missing = int(re.search(r"VCID: 16.*?Missing:\s+(\d+)", note).group(1))
data = open(FIX + "snpp_synchronized_cadus.dat", "rb").read()
for n in range(8):
    text, packets = cadus(data if n == 0 else shift(data, n, b"\x00\x1a\xcf\xfc"), 1020, 4)
    got = [tuple(map(int, m)) for m in re.findall(r"packet apid (\d+) seqid (\d+) size (\d+)", text)]
    tag = f"snpp_synchronized_cadus shifted {n}: "
    check(tag + "blocks", f"blocks {count} ok {count} end" in text)
    check(tag + "frames", f"frames {count} end" in text and len(re.findall(r"frame scid 157 vcid 16 ", text)) == count)
    check(tag + "missing", sum(map(int, re.findall(r"missing (\d+)", text))) == missing)
    check(tag + "bytes", f"corrected {count} bytes {size}" in text)
    check(tag + "packets", got == want)
    check(tag + "checksum", hashlib.md5(packets).hexdigest() == md5)

check("snpp_synchronized_cadus: every word is in the code of CCSDS 131.0-B as specified in Spec/Gf256.lean",
      lean("words", FIX + "snpp_synchronized_cadus.dat", "1020", "4").strip() == f"words {4 * count} in the code {4 * count}")

text, _ = cadus(open(FIX + "snpp_7cadus_2vcids.dat", "rb").read(), 1020, 4)
check("snpp_7cadus_2vcids: blocks and frames", "blocks 7 ok 7 end" in text and "frames 7 end" in text)
check("snpp_7cadus_2vcids: two virtual channels", len(set(re.findall(r"frame scid 157 vcid (\d+) ", text))) == 2)

print("all ok" if not bad else f"{bad} FAILED")
sys.exit(bad != 0)
