#!/bin/bash
# Builds the driver from the model in a scratch directory and compares it with the port on the given range of seeds.
# Usage: run.sh [first seed] [last seed]
set -e
export PYTHONDONTWRITEBYTECODE=1
here=$(cd "$(dirname "$0")" && pwd)
work=$(mktemp -d)
mkdir -p "$work/Verif"
cp -r "$here/../lean/Verif/Model" "$work/Verif/Model"
cp "$here/Driver.lean.txt" "$work/Main.lean"
cat > "$work/lakefile.toml" <<'EOT'
name = "driver"
[[lean_lib]]
name = "Verif"
[[lean_exe]]
name = "driver"
root = "Main"
EOT
(cd "$work" && lake build driver > /dev/null)
export DRIVER="$work/.lake/build/bin/driver"
for s in $(seq "${1:-1}" "${2:-5}"); do
  for m in sq fit any sgf; do python3 "$here/compare.py" "$s" 300 "$m"; done
  python3 "$here/compare.py" "$s" 40 big
done
rm -rf "$work"
