/lean/lake-manifest.json
