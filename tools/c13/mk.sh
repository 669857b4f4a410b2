cd /verif/tools/c13; python3 emit2.py >/dev/null; (cat ordhead.txt ord.txt ordtail.txt; echo "end SR
end Primpy") > /verif/lean/Verif/Lemmas/SlowRollOrder.lean; cd /verif && LBMAX=4000 lb Verif.Lemmas.SlowRollOrder
