#!/usr/bin/env python3
"""Generates /verif/MANIFEST.json."""
import json, os
C={}
def c(i,status,theorems,note): C["C%02d"%i]=dict(property="C%02d"%i,status=status,theorems=theorems.split(),note=note)
c(1,"proved","ascii85_roundtrip ascii85_roundtrip_encode ascii85_prefix_not_supported","full statement; also shows that the optional <~ prefix is not supported")
c(2,"partial","asciihex_roundtrip_partial asciihex_split_pair_counterexample asciihex_after_eod_counterexample","the code violates the documented behaviour for white space inside a pair and for data after '>'; both refuted by witnesses")
c(3,"proved","runlength_roundtrip runlength_complete runlength_truncated","")
c(4,"proved","lzw_roundtrip lzw_roundtrip_encode lzwEncode_spec lzw_fuel_sufficient lzw_after_eod_counterexample","holds for every conforming encoder output; the counterexample documents that bytes after end-of-data are decoded too")
c(5,"partial","png_predictor_partial png_unsupported_rejected png_average_counterexample png_sub_rgb_counterexample png_up_rgb_counterexample","Average, Sub with several colours and a first Up row with several colours are wrong in the code")
c(7,"proved","nunpack_value nunpack_bound","")
exec(open(os.path.join(os.path.dirname(__file__),"claims_more.py")).read()) if os.path.exists(os.path.join(os.path.dirname(__file__),"claims_more.py")) else None
if __name__=="__main__":
    json.dump({"claims":[C[k] for k in sorted(C)]},open(os.path.join(os.path.dirname(__file__),"..","MANIFEST.json"),"w"),indent=1)
    print(len(C))
