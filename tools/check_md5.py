"""Compare the MD5 sums of decoded samples, as printed by Verif/Conformance/Run.lean, with those in the streaminfo."""
import hashlib
import json
import sys

for line in sys.stdin:
    f = json.loads(line)
    if f["open"] != "ok":
        print(f["file"], "|", f["open"])
        continue
    md5 = hashlib.md5()
    count = 0
    size = (f["bits"] + 7) // 8
    for channels, duration, samples in f["blocks"]:
        count += duration
        for i in range(duration):
            for ch in range(channels):
                md5.update(samples[ch * duration + i].to_bytes(size, "little", signed=True))
    agrees = "absent" if not any(f["md5"]) else str(md5.digest() == bytes(f["md5"]))
    print(f["file"], "|", f["end"], "|", len(f["blocks"]), "blocks,", count, "of", f["samples"], "samples, md5", agrees,
          "| independent of the buffer:", f["same"])
